import Verif.Lemmas.Packet
import Verif.Lemmas.Prefix
import Verif.Model.PacketIo
/-
Lemmas about computations on a connection and about the packet reader.
-/
namespace Nora
open R

theorem bind_ne_panic {ε α β : Type} {x : R ε α} {f : α → R ε β} (hx : x ≠ R.panic)
    (hf : ∀ a, x = ok a → f a ≠ R.panic) : (x >>= f) ≠ R.panic := by
  cases x with
  | ok a => exact hf a rfl
  | err e => exact fun h => by cases h
  | panic => exact absurd rfl hx

theorem okOr_ne_panic {ε ε' α : Type} {x : R ε α} {e : ε'} (hx : x ≠ R.panic) :
    x.okOr e ≠ R.panic := by
  cases x with
  | ok a => exact fun h => by cases h
  | err e => exact fun h => by cases h
  | panic => exact absurd rfl hx

theorem mapErr_ne_panic {ε ε' α : Type} {x : R ε α} {f : ε → ε'} (hx : x ≠ R.panic) :
    x.mapErr f ≠ R.panic := by
  cases x with
  | ok a => exact fun h => by cases h
  | err e => exact fun h => by cases h
  | panic => exact absurd rfl hx

namespace M
variable {ε ε' α β : Type}

@[simp] theorem pure_run (a : α) (s : IoSt) : (pure a : M ε α) s = (ok a, s) := rfl
@[simp] theorem lift_run (x : R ε α) (s : IoSt) : M.lift x s = (x, s) := rfl
@[simp] theorem fail_run (e : ε) (s : IoSt) : (M.fail e : M ε α) s = (err e, s) := rfl
@[simp] theorem panic_run (s : IoSt) : (M.panic : M ε α) s = (R.panic, s) := rfl
@[simp] theorem mapErr_run (f : ε → ε') (x : M ε α) (s : IoSt) :
    x.mapErr f s = ((x s).1.mapErr f, (x s).2) := rfl
@[simp] theorem unwrap_run (x : M ε α) (s : IoSt) :
    (x.unwrap : M ε' α) s = ((x s).1.unwrap, (x s).2) := rfl
@[simp] theorem logEvent_run (e : Event) (s : IoSt) :
    (M.logEvent e : M ε Unit) s = (ok (), { s with log := s.log ++ [e] }) := rfl
@[simp] theorem getLog_run (s : IoSt) : (M.getLog : M ε (List Event)) s = (ok s.log, s) := rfl

theorem bind_run (x : M ε α) (f : α → M ε β) (s : IoSt) :
    (x >>= f) s = match x s with
      | (.ok a, s') => f a s'
      | (.err e, s') => (.err e, s')
      | (.panic, s') => (.panic, s') := rfl

theorem bind_ok {x : M ε α} {f : α → M ε β} {s s' : IoSt} {a : α} (h : x s = (ok a, s')) :
    (x >>= f) s = f a s' := by rw [bind_run, h]

theorem bind_err {x : M ε α} {f : α → M ε β} {s s' : IoSt} {e : ε} (h : x s = (err e, s')) :
    (x >>= f) s = (err e, s') := by rw [bind_run, h]

theorem bind_panic {x : M ε α} {f : α → M ε β} {s s' : IoSt} (h : x s = (R.panic, s')) :
    (x >>= f) s = (R.panic, s') := by rw [bind_run, h]

@[simp] theorem lift_ok_bind (a : α) (f : α → M ε β) : (M.lift (ok a) >>= f) = f a := rfl
@[simp] theorem lift_err_bind (e : ε) (f : α → M ε β) : (M.lift (err e) >>= f) = M.fail e := rfl
@[simp] theorem lift_panic_bind (f : α → M ε β) : (M.lift R.panic >>= f) = M.panic := rfl
@[simp] theorem pure_bind (a : α) (f : α → M ε β) : (pure a >>= f) = f a := rfl
@[simp] theorem fail_bind (e : ε) (f : α → M ε β) : (M.fail e >>= f) = M.fail e := rfl
@[simp] theorem panic_bind (f : α → M ε β) : ((M.panic : M ε α) >>= f) = M.panic := rfl

theorem readExact_ok {n : Nat} {s : IoSt} (h : n ≤ s.inp.length) :
    M.readExact n s = (ok (s.inp.take n), { s with inp := s.inp.drop n }) := if_pos h

theorem readExact_err {n : Nat} {s : IoSt} (h : s.inp.length < n) :
    M.readExact n s = (err (), { s with inp := [] }) := if_neg (by omega)

end M

theorem u32Nat_app_inj {a b : Nat} {r r' : Bytes} (ha : a < 4294967296) (hb : b < 4294967296)
    (h : Spec.u32 a ++ r = Spec.u32 b ++ r') : a = b ∧ r = r' := by
  have e1 : (UInt32.ofNat a).toNat = a := UInt32.toNat_ofNat_of_lt' ha
  have e2 : (UInt32.ofNat b).toNat = b := UInt32.toNat_ofNat_of_lt' hb
  rw [← e1, ← e2] at h
  obtain ⟨h1, h2⟩ := u32_app_inj h
  refine ⟨?_, h2⟩
  rw [← e1, ← e2, h1]

/-- The packet reader, described completely. -/
theorem PacketIo.parse_cases {buf : Bytes} {mode : Bool} {bs : BlockSize} {s : IoSt}
    (h4 : 4 ≤ buf.length) :
    -- not even a length
    (s.inp.length < 4 ∧ PacketIo.parse buf mode bs s = (err .io, { s with inp := [] })) ∨
    (∃ n rest, n < 4294967296 ∧ s.inp = Spec.u32 n ++ rest ∧
      ((buf.length < n ∧
          PacketIo.parse buf mode bs s = (err (.tooLarge n), { s with inp := rest })) ∨
       (n ≤ buf.length ∧ n < 8 ∧
          PacketIo.parse buf mode bs s = (err (.tooSmall n), { s with inp := rest })) ∨
       -- the announced length does not fit behind the length field
       (n ≤ buf.length ∧ 8 ≤ n ∧ buf.length < 4 + n ∧
          PacketIo.parse buf mode bs s = (R.panic, { s with inp := rest })) ∨
       (8 ≤ n ∧ 4 + n ≤ buf.length ∧ rest.length < n ∧
          PacketIo.parse buf mode bs s = (err .io, { s with inp := [] })) ∨
       (8 ≤ n ∧ 4 + n ≤ buf.length ∧ n ≤ rest.length ∧
          PacketIo.parse buf mode bs s =
            ((Packet.wrapRaw (Spec.u32 n ++ (rest.take n ++ buf.drop (4 + n))) mode bs).mapErr
              .wrapRaw, { s with inp := rest.drop n })))) := by
  have e0 : (idxTo buf 4 : R PacketParseError Bytes) = ok (buf.take 4) := if_pos h4
  by_cases hi : s.inp.length < 4
  · left
    refine ⟨hi, ?_⟩
    unfold PacketIo.parse
    rw [e0, M.lift_ok_bind, M.bind_err (e := .io) (s' := { s with inp := [] })]
    rw [M.mapErr_run, M.readExact_err hi]; rfl
  · right
    obtain ⟨v, hv⟩ := exists_u32 (s := s.inp.take 4) (by simp; omega)
    refine ⟨v.toNat, s.inp.drop 4, v.toNat_lt, by rw [← hv, List.take_append_drop], ?_⟩
    have e1 : (M.readExact 4).mapErr (fun _ => PacketParseError.io) s =
        (ok (Spec.u32 v.toNat), { s with inp := s.inp.drop 4 }) := by
      rw [M.mapErr_run, M.readExact_ok (by omega), hv]; rfl
    have e2 : ∀ f : UInt32 → M PacketParseError Packet,
        (M.lift (u32FromBe (Spec.u32 v.toNat)) >>= f) = f v := by
      intro f; rw [u32FromBe_u32]; rfl
    have e3 : (Spec.u32 v.toNat ++ buf.drop 4).length = buf.length := by len
    unfold PacketIo.parse
    rw [e0, M.lift_ok_bind, M.bind_ok e1, e2, e3]
    by_cases h1 : buf.length < v.toNat
    · left
      exact ⟨h1, by rw [if_pos h1]; rfl⟩
    right
    rw [if_neg (by omega)]
    by_cases h2 : v.toNat < 8
    · left
      exact ⟨by omega, h2, by rw [if_pos h2]; rfl⟩
    right
    rw [if_neg h2]
    have e4 : (idxFrom (Spec.u32 v.toNat ++ buf.drop 4) 4 : R PacketParseError Bytes) =
        ok (buf.drop 4) := by
      rw [idxFrom, if_pos (by omega)]
      rfl
    rw [e4, M.lift_ok_bind]
    by_cases h3 : buf.length < 4 + v.toNat
    · left
      refine ⟨by omega, by omega, h3, ?_⟩
      have : (idxTo (buf.drop 4) v.toNat : R PacketParseError Bytes) = R.panic :=
        if_neg (by len)
      rw [this, M.lift_panic_bind]; rfl
    right
    have e5 : (idxTo (buf.drop 4) v.toNat : R PacketParseError Bytes) =
        ok ((buf.drop 4).take v.toNat) := if_pos (by len)
    rw [e5, M.lift_ok_bind]
    by_cases h6 : (s.inp.drop 4).length < v.toNat
    · left
      refine ⟨by omega, by omega, h6, ?_⟩
      rw [M.bind_err (e := .io) (s' := { s with inp := [] })]
      rw [M.mapErr_run, M.readExact_err (by exact h6)]; rfl
    right
    refine ⟨by omega, by omega, by omega, ?_⟩
    have e7 : (M.readExact v.toNat).mapErr (fun _ => PacketParseError.io)
        { s with inp := s.inp.drop 4 } =
        (ok ((s.inp.drop 4).take v.toNat), { s with inp := (s.inp.drop 4).drop v.toNat }) := by
      rw [M.mapErr_run, M.readExact_ok (by show _ ≤ (s.inp.drop 4).length; omega)]; rfl
    rw [M.bind_ok e7, M.lift_run]
    have e8 : (Spec.u32 v.toNat ++ buf.drop 4).take 4 ++ (s.inp.drop 4).take v.toNat ++
        (buf.drop 4).drop v.toNat =
        Spec.u32 v.toNat ++ ((s.inp.drop 4).take v.toNat ++ buf.drop (4 + v.toNat)) := by
      rw [List.drop_drop, List.append_assoc]; rfl
    rw [e8]

end Nora
