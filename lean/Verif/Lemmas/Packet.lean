import Verif.Spec.Packet
import Verif.Lemmas.Data
import Mathlib.Tactic.SplitIfs
/-
Lemmas about packets.
-/
namespace Nora
open R

variable {ε : Type}

/-- close a goal about lengths of lists -/
macro "len" : tactic => `(tactic| first | omega | (simp; done) | (simp; omega))

@[simp] theorem Tape.bytes_length (t : Tape) (n : Nat) : (t.bytes n).length = n := by
  simp [Tape.bytes]

theorem roundUp_eq (x : Nat) (bs : BlockSize) :
    roundUp x bs.toUsize = (x + bs.toUsize - 1) / bs.toUsize * bs.toUsize := by
  have h : ∀ a k, a - (a &&& (2 ^ k - 1)) = a / 2 ^ k * 2 ^ k := by
    intro a k
    rw [Nat.and_two_pow_sub_one_eq_mod]
    have := Nat.div_add_mod a (2 ^ k)
    rw [Nat.mul_comm] at this
    omega
  cases bs
  · exact h _ 3
  · exact h _ 4
  · exact h _ 5
  · exact h _ 6

theorem Packet.lengths_spec (bs : BlockSize) (mode : Bool) (n : Nat) :
    ∃ k, (Packet.lengths bs mode n : R ε (Nat × Nat)) = ok (k, 1 + n + k) ∧
      Spec.LeastPad bs mode n k ∧ k ≤ 67 := by
  simp only [Packet.lengths, roundUp_eq]
  cases bs <;> cases mode <;>
    (simp only [BlockSize.toUsize, subP, if_true, if_false,
      Bool.false_eq_true]
     rw [if_pos (by omega)]; simp only [ok_bind]; rw [if_pos (by omega)]; simp only [ok_bind]
     rw [if_pos (by omega)]; simp only [ok_bind]
     split_ifs with h
     all_goals
       refine ⟨_, by rw [R.ok.injEq, Prod.mk.injEq]; exact ⟨rfl, by omega⟩, ⟨by omega, ?_, ?_⟩, by omega⟩
       all_goals simp only [Spec.Aligned, Spec.blockBytes, if_true, if_false, Bool.false_eq_true]
       all_goals omega)

theorem leastPad_unique {bs : BlockSize} {mode : Bool} {n k k' : Nat}
    (h : Spec.LeastPad bs mode n k) (h' : Spec.LeastPad bs mode n k') : k = k' := by
  have a := h.2.2 k' h'.1 h'.2.1
  have b := h'.2.2 k h.1 h.2.1
  omega

theorem leastPad_le {bs : BlockSize} {mode : Bool} {n k : Nat}
    (h : Spec.LeastPad bs mode n k) : k ≤ 67 := by
  obtain ⟨k', _, h', hk⟩ := Packet.lengths_spec (ε := Unit) bs mode n
  rw [leastPad_unique h h']; exact hk

theorem Packet.lengths_eq {bs : BlockSize} {mode : Bool} {n k : Nat}
    (h : Spec.LeastPad bs mode n k) :
    (Packet.lengths bs mode n : R ε (Nat × Nat)) = ok (k, 1 + n + k) := by
  obtain ⟨k', e, h', _⟩ := Packet.lengths_spec (ε := ε) bs mode n
  rw [leastPad_unique h h', e]

theorem leastPad_exists (bs : BlockSize) (mode : Bool) (n : Nat) :
    ∃ k, Spec.LeastPad bs mode n k := by
  obtain ⟨k, _, h, _⟩ := Packet.lengths_spec (ε := Unit) bs mode n
  exact ⟨k, h⟩

theorem splitAtP_of_le {s : Bytes} {n : Nat} (h : n ≤ s.length) :
    (splitAtP s n : R ε (Bytes × Bytes)) = ok (s.take n, s.drop n) := if_pos h

theorem splitAtP_of_lt {s : Bytes} {n : Nat} (h : s.length < n) :
    (splitAtP s n : R ε (Bytes × Bytes)) = panic := if_neg (by omega)

/-- what `Packet::wrap` does, for a payload writer that succeeds -/
theorem Packet.wrap_eq {buf : Bytes} {bs : BlockSize} {mode : Bool}
    {mp : Bytes → R ε (Nat × Bytes)} {rng : Tape} {n k : Nat} {new : Bytes}
    (h5 : 5 ≤ buf.length) (hm : mp (buf.drop 5) = ok (n, new))
    (hl : new.length + 5 = buf.length) (hk : Spec.LeastPad bs mode n k) :
    Packet.wrap buf bs mode mp rng =
      if 5 + n + k ≤ buf.length ∧ 1 + n + k < 4294967296 then
        ok (⟨Spec.u32 (1 + n + k) ++ UInt8.ofNat k :: (new.take n ++ (rng.bytes k ++
          new.drop (n + k)))⟩, rng.skip k)
      else panic := by
  have k67 := leastPad_le hk
  simp only [Packet.wrap, splitAtP_of_le h5, ok_bind, hm, Packet.lengths_eq hk]
  by_cases h2 : 1 + n + k < 4294967296
  · have e1 : (u32TryFrom (1 + n + k) : R ε UInt32) = ok (UInt32.ofNat (1 + n + k)) := if_pos h2
    have e2 : (u8TryFrom k : R ε Byte) = ok (UInt8.ofNat k) := if_pos (by omega)
    have e3 : ((u32ToBe (UInt32.ofNat (1 + n + k)) ++ (buf.take 5).drop 4).set 4 (UInt8.ofNat k)) =
        Spec.u32 (1 + n + k) ++ [UInt8.ofNat k] := by
      rw [u32ToBe_ofNat h2]
      have : ∃ b, (buf.take 5).drop 4 = [b] := by
        match buf, h5 with
        | a :: b :: c :: d :: e :: t, _ => exact ⟨e, rfl⟩
      obtain ⟨b, hb⟩ := this
      rw [hb]; rfl
    simp only [e1, ok_bind, e2, e3]
    by_cases h1 : 5 + n + k ≤ buf.length
    · rw [if_pos ⟨h1, h2⟩]
      have hlen : (Spec.u32 (1 + n + k) ++ [UInt8.ofNat k] ++ new).length = buf.length := by
        len
      have e4 : (idxFrom (Spec.u32 (1 + n + k) ++ [UInt8.ofNat k] ++ new) (4 + 1 + n) : R ε Bytes)
          = ok (new.drop n) := by
        rw [idxFrom, if_pos (by omega)]
        congr 1
        rw [List.drop_append, List.drop_eq_nil_of_le (by len)]
        simp only [List.nil_append]
        congr 1; len
      have e5 : (idxTo (new.drop n) k : R ε Bytes) = ok ((new.drop n).take k) :=
        if_pos (by len)
      simp only [e4, ok_bind, e5]
      congr 2
      rw [List.take_append, List.take_of_length_le (by len)]
      have : 4 + 1 + n - (Spec.u32 (1 + n + k) ++ [UInt8.ofNat k]).length = n := by len
      rw [this]
      simp [List.drop_drop]
    · rw [if_neg (by omega)]
      by_cases h3 : 5 + n ≤ buf.length
      · have e4 : (idxFrom (Spec.u32 (1 + n + k) ++ [UInt8.ofNat k] ++ new) (4 + 1 + n) : R ε Bytes)
            = ok (new.drop n) := by
          rw [idxFrom, if_pos (by len)]
          congr 1
          rw [List.drop_append, List.drop_eq_nil_of_le (by len)]
          simp only [List.nil_append]
          congr 1; len
        have e5 : (idxTo (new.drop n) k : R ε Bytes) = panic := if_neg (by len)
        simp only [e4, ok_bind, e5, panic_bind]
      · have e4 : (idxFrom (Spec.u32 (1 + n + k) ++ [UInt8.ofNat k] ++ new) (4 + 1 + n) : R ε Bytes)
            = panic := if_neg (by len)
        simp only [e4, panic_bind]
  · have e1 : (u32TryFrom (1 + n + k) : R ε UInt32) = panic := if_neg h2
    simp only [e1, panic_bind]
    rw [if_neg (by omega)]

/-! ### accessors -/

theorem Packet.packetLen_u32 {n : Nat} (h : n < 4294967296) (r : Bytes) :
    (Packet.packetLen ⟨Spec.u32 n ++ r⟩ : R ε Nat) = ok n := by
  have e1 : (Packet.packetLenBytes ⟨Spec.u32 n ++ r⟩ : R ε Bytes) = ok (Spec.u32 n) := by
    simp only [Packet.packetLenBytes, idxTo]
    rw [if_pos (by simp)]
    rfl
  have e2 := u32FromBe_u32 (ε := ε) (UInt32.ofNat n)
  rw [UInt32.toNat_ofNat_of_lt' h] at e2
  simp only [Packet.packetLen, e1, ok_bind, e2, UInt32.toNat_ofNat_of_lt' h]

theorem Packet.paddingLen_u32 (n : Nat) (k : Byte) (r : Bytes) :
    (Packet.paddingLen ⟨Spec.u32 n ++ k :: r⟩ : R ε Nat) = ok k.toNat := rfl

/-- a buffer of at least 5 bytes starts with a length and a padding length -/
theorem exists_header {data : Bytes} (h : 5 ≤ data.length) :
    ∃ n k r, n < 4294967296 ∧ data = Spec.u32 n ++ k :: r := by
  obtain ⟨v, hv⟩ := exists_u32 (s := data.take 4) (by len)
  match data, h with
  | a :: b :: c :: d :: e :: t, _ =>
    exact ⟨v.toNat, e, t, v.toNat_lt, by rw [← hv]; rfl⟩

theorem Packet.wrapRaw_eq {n : Nat} (h : n < 4294967296) (k : Byte) (r : Bytes) (mode : Bool)
    (bs : BlockSize) :
    Packet.wrapRaw (Spec.u32 n ++ k :: r) mode bs =
      if ¬ Spec.Aligned bs mode n then err .badAlignment
      else if k.toNat ≥ n then err .paddingTooLarge else ok ⟨Spec.u32 n ++ k :: r⟩ := by
  have hb : bs.toUsize = Spec.blockBytes bs := by cases bs <;> rfl
  simp only [Packet.wrapRaw, Packet.packetLen_u32 h, ok_bind, Packet.paddingLen_u32, Spec.Aligned,
    hb]
  rw [Nat.add_comm n]
  split_ifs <;> rfl

theorem Packet.payload_eq {n : Nat} (h : n < 4294967296) (k : Byte) (r : Bytes)
    (hk : k.toNat < n) (hr : n ≤ 1 + r.length) :
    (Packet.payload ⟨Spec.u32 n ++ k :: r⟩ : R ε Bytes) = ok (r.take (n - 1 - k.toNat)) := by
  simp only [Packet.payload, Packet.payloadLen, Packet.packetLen_u32 h, Packet.paddingLen_u32,
    ok_bind, subP]
  rw [if_pos (by omega)]
  simp only [ok_bind]
  rw [if_pos (by omega)]
  simp only [ok_bind, idxRange]
  rw [if_pos (by len)]
  congr 1
  have : (Spec.u32 n ++ k :: r) = (Spec.u32 n ++ [k]) ++ r := by simp
  rw [this, List.take_append, List.drop_append]
  simp only [List.length_take, List.length_append, u32_length, List.length_cons, List.length_nil]
  rw [List.drop_eq_nil_of_le (by simp)]
  simp only [List.nil_append]
  have e : 5 + (n - k.toNat - 1) - (4 + (0 + 1)) = n - 1 - k.toNat := by omega
  have e' : 5 - min (5 + (n - k.toNat - 1)) (4 + (0 + 1)) = 0 := by omega
  rw [e, e', List.drop_zero]

theorem Packet.payloadLen_eq {n : Nat} (h : n < 4294967296) (k : Byte) (r : Bytes)
    (hk : k.toNat < n) :
    (Packet.payloadLen ⟨Spec.u32 n ++ k :: r⟩ : R ε Nat) = ok (n - k.toNat - 1) := by
  simp only [Packet.payloadLen, Packet.packetLen_u32 h, Packet.paddingLen_u32,
    ok_bind, subP]
  rw [if_pos (by omega)]
  simp only [ok_bind]
  rw [if_pos (by omega)]

theorem Packet.packetBytes_eq {n : Nat} (h : n < 4294967296) (r : Bytes) (hr : n ≤ r.length) :
    (Packet.packetBytes ⟨Spec.u32 n ++ r⟩ : R ε Bytes) = ok (r.take n) := by
  simp only [Packet.packetBytes, Packet.packetLen_u32 h, ok_bind, idxRange]
  rw [if_pos (by len)]
  congr 1
  rw [List.take_append, List.take_of_length_le (by len), List.drop_append,
    List.drop_eq_nil_of_le (by len)]
  simp

theorem Packet.asRaw_eq {n : Nat} (h : n < 4294967296) (r : Bytes) (hr : n ≤ r.length) (x : Nat)
    (hx : n + x ≤ r.length) :
    (Packet.asRaw ⟨Spec.u32 n ++ r⟩ : R ε Bytes) = ok (Spec.u32 n ++ r.take n) ∧
    (Packet.intoRaw ⟨Spec.u32 n ++ r⟩ x : R ε Bytes) = ok (Spec.u32 n ++ r.take (n + x)) := by
  simp only [Packet.asRaw, Packet.intoRaw, Packet.packetLen_u32 h, ok_bind, idxTo]
  constructor
  · rw [if_pos (by len)]
    congr 1
    rw [List.take_append, List.take_of_length_le (by simp)]
    simp
  · rw [if_pos (by len)]
    congr 1
    rw [List.take_append, List.take_of_length_le (by len)]
    congr 2
    len

/-- unwrapping a legal packet, whatever follows it -/
theorem Packet.wrapRaw_packetOf {bs : BlockSize} {mode : Bool} {payload padding raw : Bytes}
    (h : Spec.PacketOf bs mode payload padding raw) (rest : Bytes) :
    Packet.wrapRaw (raw ++ rest) mode bs = ok ⟨raw ++ rest⟩ ∧
    (Packet.payload ⟨raw ++ rest⟩ : R ε Bytes) = ok payload ∧
    (Packet.asRaw ⟨raw ++ rest⟩ : R ε Bytes) = ok raw := by
  have hp : (UInt8.ofNat padding.length).toNat = padding.length :=
    UInt8.toNat_ofNat_of_lt' (by have := h.maxPad; show _ < 256; omega)
  have e : raw ++ rest = Spec.u32 (1 + payload.length + padding.length) ++
      UInt8.ofNat padding.length :: (payload ++ padding ++ rest) := by
    rw [h.bytes]; simp
  have hf := h.fits
  refine ⟨?_, ?_, ?_⟩
  · rw [e, Packet.wrapRaw_eq h.fits, if_neg (Classical.not_not.mpr h.aligned), if_neg (by rw [hp]; omega)]
  · rw [e, Packet.payload_eq h.fits _ _ (by rw [hp]; omega) (by len), hp]
    congr 1
    have : 1 + payload.length + padding.length - 1 - padding.length = payload.length := by omega
    rw [this, List.append_assoc, List.take_left]
  · rw [e, (Packet.asRaw_eq h.fits _ (by len) 0 (by len)).1]
    congr 1
    rw [h.bytes]
    congr 1
    have : 1 + payload.length + padding.length = (payload ++ padding).length + 1 := by len
    rw [this, List.take_succ_cons, List.take_left]

theorem Packet.intoRaw_packetOf {bs : BlockSize} {mode : Bool} {payload padding raw : Bytes}
    (mac rest : Bytes) (h : Spec.PacketOf bs mode payload padding raw) :
    (Packet.intoRaw ⟨raw ++ mac ++ rest⟩ mac.length : R ε Bytes) = ok (raw ++ mac) := by
  have hb := h.bytes
  rw [hb]
  simp only [List.append_assoc]
  rw [(Packet.asRaw_eq h.fits _ (by len) _ (by len)).2]
  congr 2
  rw [List.cons_append]
  have : 1 + payload.length + padding.length + mac.length =
    (payload ++ padding ++ mac).length + 1 := by len
  rw [this, List.take_succ_cons, ← List.append_assoc _ mac rest, List.take_left]
  simp

theorem packetOf_framed {bs : BlockSize} {mode : Bool} {payload padding raw : Bytes}
    (h : Spec.PacketOf bs mode payload padding raw) : Spec.Framed bs mode payload raw := by
  refine ⟨padding, h.bytes, h.maxPad, h.aligned, ?_, h.fits⟩
  have ha := h.aligned
  have hm := h.minPad
  cases bs <;> cases mode <;>
    simp only [Spec.Aligned, Spec.blockBytes, if_true, if_false, Bool.false_eq_true] at ha <;>
    omega

end Nora
