import Verif.Lemmas.Base
/-
Lemmas about the readers and writers of nora_ssh_core/src/data.rs.
-/
namespace Nora
open R

@[simp] theorem str_length (s : Bytes) : (Spec.str s).length = 4 + s.length := by
  simp [Spec.str]

/-! ### readers -/

theorem getTo_eq_ok {s r : Bytes} {n : Nat} :
    getTo s n = ok r ↔ n ≤ s.length ∧ r = s.take n := by
  unfold getTo; split_ifs with h <;> simp [h, eq_comm]

theorem getTo_ne_panic {s : Bytes} {n : Nat} : getTo s n ≠ panic := by
  unfold getTo; split_ifs <;> simp

theorem getRange_ne_panic {s : Bytes} {a b : Nat} : getRange s a b ≠ panic := by
  unfold getRange; split_ifs <;> simp

theorem append_of_take {s a : Bytes} {n : Nat} (h : s.take n = a) : s = a ++ s.drop n := by
  rw [← h, List.take_append_drop]

theorem parseString_eq_ok {b s r : Bytes} :
    parseString b = ok (s, r) ↔ Spec.Fits s ∧ b = Spec.str s ++ r := by
  unfold parseString
  constructor
  · intro h
    simp only [bind_eq_ok, getTo_eq_ok] at h
    obtain ⟨h4, ⟨hl, rfl⟩, len, hlen, v, hv, rest, hrest, he⟩ := h
    rw [u32FromBe_eq_ok] at hlen
    unfold getRange at hv
    split_ifs at hv with hc
    unfold idxFrom at hrest
    split_ifs at hrest
    simp only [R.ok.injEq, Prod.mk.injEq] at he hv hrest
    obtain ⟨rfl, rfl⟩ := he
    have hlen' : v.length = len.toNat := by
      rw [← hv]; simp; omega
    refine ⟨?_, ?_⟩
    · have := len.toNat_lt
      unfold Spec.Fits; omega
    · unfold Spec.str
      rw [hlen', ← hlen, ← hv, ← hrest]
      have : List.take 4 (List.take (4 + len.toNat) b) = List.take 4 b := by
        rw [List.take_take]; congr 1; omega
      rw [← this, List.take_append_drop, List.take_append_drop]
  · rintro ⟨hf, rfl⟩
    unfold Spec.Fits at hf
    have e4 : (Spec.str s ++ r).take 4 = Spec.u32 s.length := by
      simp [Spec.str, Spec.u32]
    have hv : (UInt32.ofNat s.length).toNat = s.length := by
      simp; omega
    have hu : (u32FromBe (Spec.u32 s.length) : R Unit UInt32) = ok (UInt32.ofNat s.length) := by
      rw [u32FromBe_eq_ok, hv]
    have g : getTo (Spec.str s ++ r) 4 = ok (Spec.u32 s.length) := by
      rw [getTo_eq_ok, e4]; simp
      omega
    rw [g]
    simp only [ok_bind, hu]
    have g2 : getRange (Spec.str s ++ r) 4 (4 + (UInt32.ofNat s.length).toNat) = ok s := by
      rw [hv]
      unfold getRange
      rw [if_pos (by simp)]
      congr 1
      rw [List.take_left' (by simp)]
      simp [Spec.str, Spec.u32]
    rw [g2]
    simp only [ok_bind]
    rw [hv]
    unfold idxFrom
    rw [if_pos (by simp)]
    simp [List.drop_left' (l₁ := Spec.str s) (l₂ := r) (str_length s)]

theorem parseString_ne_panic {b : Bytes} : parseString b ≠ panic := by
  unfold parseString
  intro h
  simp only [bind_eq_panic, getTo_ne_panic, getRange_ne_panic, false_or, getTo_eq_ok] at h
  obtain ⟨h4, ⟨hl, rfl⟩, h⟩ := h
  rcases h with h | ⟨len, hlen, v, hv, h⟩
  · rw [u32FromBe_eq_panic] at h
    simp at h; omega
  · unfold getRange at hv
    split_ifs at hv with hc
    unfold idxFrom at h
    rcases h with h | ⟨_, _, h⟩
    · split_ifs at h; omega
    · cases h

@[simp] theorem parseString_str (s r : Bytes) (h : Spec.Fits s) :
    parseString (Spec.str s ++ r) = ok (s, r) := parseString_eq_ok.mpr ⟨h, rfl⟩

theorem parseUint32_eq_ok {b r : Bytes} {v : UInt32} :
    parseUint32 b = ok (v, r) ↔ b = Spec.u32 v.toNat ++ r := by
  unfold parseUint32
  split_ifs with h
  · simp only [idxTo, idxFrom, if_pos h, ok_bind, bind_eq_ok, u32FromBe_eq_ok]
    constructor
    · rintro ⟨w, hw, he⟩
      simp only [R.ok.injEq, Prod.mk.injEq] at he
      obtain ⟨rfl, rfl⟩ := he
      exact append_of_take hw
    · rintro rfl
      exact ⟨v, by simp [Spec.u32], by simp [Spec.u32]⟩
  · constructor
    · intro h; cases h
    · rintro rfl; simp at h

theorem parseUint32_ne_panic {b : Bytes} : parseUint32 b ≠ panic := by
  unfold parseUint32
  split_ifs with h
  · simp only [idxTo, idxFrom, if_pos h, ok_bind, bind_eq_panic, ne_eq, not_or, u32FromBe_eq_panic]
    refine ⟨by simp; omega, by simp⟩
  · simp

theorem parseBool_eq_ok {b r : Bytes} {v : Bool} :
    parseBool b = ok (v, r) ↔ ∃ t, b = t :: r ∧ v = (t != 0) := by
  unfold parseBool
  cases b with
  | nil => simp
  | cons a t =>
    simp only [List.length_cons, ge_iff_le, Nat.le_add_left, if_true, idxAt, idxFrom, ok_bind,
      List.getElem?_cons_zero, List.drop_succ_cons, List.drop_zero, R.ok.injEq, Prod.mk.injEq,
      List.cons.injEq]
    constructor
    · rintro ⟨rfl, rfl⟩; exact ⟨a, ⟨rfl, rfl⟩, rfl⟩
    · rintro ⟨x, ⟨rfl, rfl⟩, rfl⟩; exact ⟨rfl, rfl⟩

theorem parseBool_ne_panic {b : Bytes} : parseBool b ≠ panic := by
  unfold parseBool
  cases b <;> simp [idxAt, idxFrom]

theorem splitFirst_eq_ok {b r : Bytes} {v : Byte} : splitFirst b = ok (v, r) ↔ b = v :: r := by
  cases b <;> simp [splitFirst]

theorem splitFirst_ne_panic {b : Bytes} : splitFirst b ≠ panic := by
  cases b <;> simp [splitFirst]

theorem getAt_zero_eq_ok {b : Bytes} {v : Byte} : getAt b 0 = ok v ↔ b.head? = some v := by
  cases b <;> simp [getAt]

theorem getAt_ne_panic {b : Bytes} {i : Nat} : getAt b i ≠ panic := by
  unfold getAt; split <;> simp

theorem split_eq_ok {b x r : Bytes} {n : Nat} :
    split b n = ok (x, r) ↔ x.length = n ∧ b = x ++ r := by
  unfold split
  split_ifs with h
  · simp only [splitAtP, if_pos h, R.ok.injEq, Prod.mk.injEq]
    constructor
    · rintro ⟨rfl, rfl⟩; simp; omega
    · rintro ⟨rfl, rfl⟩; simp
  · constructor
    · intro h; cases h
    · rintro ⟨rfl, rfl⟩; simp at h

theorem split_ne_panic {b : Bytes} {n : Nat} : split b n ≠ panic := by
  unfold split
  split_ifs with h
  · simp [splitAtP, if_pos h]
  · simp

/-! ### writers -/

/-- the writer emits exactly `e` if it fits and fails otherwise -/
def Emits (f : Bytes → R Unit (Nat × Bytes × Bytes)) (e : Bytes) : Prop :=
  ∀ buf, f buf = if e.length ≤ buf.length then ok (e.length, e, buf.drop e.length) else err ()

/-- the serialiser puts exactly `e` at the start of the buffer if it fits and fails otherwise -/
def Fills (f : Bytes → R Unit (Nat × Bytes)) (e : Bytes) : Prop :=
  ∀ buf, f buf = if e.length ≤ buf.length then ok (e.length, e ++ buf.drop e.length) else err ()

theorem u32TryFrom_fits {ε : Type} {s : Bytes} (h : Spec.Fits s) :
    (u32TryFrom s.length : R ε UInt32) = ok (UInt32.ofNat s.length) := by
  unfold u32TryFrom; rw [if_pos]; exact h

theorem u32ToBe_ofNat {n : Nat} (h : n < 4294967296) : u32ToBe (UInt32.ofNat n) = Spec.u32 n := by
  rw [u32ToBe_eq]; congr 1; simp; omega

theorem makeString2_emits {s : Bytes} (h : Spec.Fits s) :
    Emits (fun buf => makeString2 buf s) (Spec.str s) := by
  intro buf
  simp only [makeString2, u32TryFrom_fits h, ok_bind, u32ToBe_ofNat h, str_length]
  by_cases hl : 4 + s.length ≤ buf.length
  · rw [if_pos hl]
    simp only [getTo, if_pos (show 4 ≤ buf.length by omega), ok_bind, getRange,
      if_pos (show 4 ≤ 4 + s.length ∧ 4 + s.length ≤ buf.length from ⟨by omega, hl⟩), idxFrom,
      if_pos hl, Spec.str]
  · rw [if_neg hl]
    unfold getTo
    split_ifs with h4
    · simp [getRange, hl]
    · rfl

theorem makeBool_emits (v : Bool) : Emits (fun buf => makeBool buf v) (Spec.boolT 1 v) := by
  intro buf
  cases buf <;> simp [makeBool, splitFirst, Spec.boolT]

theorem makeUint32_emits (v : UInt32) :
    Emits (fun buf => makeUint32 buf v) (Spec.u32 v.toNat) := by
  intro buf
  simp only [makeUint32, u32_length, ge_iff_le]
  split_ifs with h
  · simp [idxFrom, h, u32ToBe_eq]
  · simp [h]

theorem makeRaw_emits (s : Bytes) : Emits (fun buf => makeRaw buf s) s := by
  intro buf
  simp only [makeRaw]
  split_ifs with h
  · simp [splitAtP, h]
  · rfl

theorem Emits.nil {f : Bytes → R Unit (Nat × Bytes × Bytes)} (h : ∀ buf, f buf = ok (0, [], buf)) :
    Emits f [] := by
  intro buf; simp [h]

/-- one step of a chain of writers -/
theorem Emits.step {f : Bytes → R Unit (Nat × Bytes × Bytes)} {e buf : Bytes} (h : Emits f e)
    {β : Type} (k : Nat → Bytes → Bytes → R Unit β) :
    (f buf >>= fun x => k x.1 x.2.1 x.2.2) =
      if e.length ≤ buf.length then k e.length e (buf.drop e.length) else err () := by
  rw [h buf]
  split_ifs <;> rfl

/-- a chain of writers that ends the serialiser: running `f` then `k` -/
theorem Fills.step {f : Bytes → R Unit (Nat × Bytes × Bytes)} {e e' : Bytes} (h : Emits f e)
    {k : Nat → Bytes → Bytes → R Unit (Nat × Bytes)}
    (hk : ∀ buf, k e.length e buf = if e'.length ≤ buf.length then
      ok (e.length + e'.length, e ++ (e' ++ buf.drop e'.length)) else err ()) :
    Fills (fun buf => f buf >>= fun x => k x.1 x.2.1 x.2.2) (e ++ e') := by
  intro buf
  simp only [h.step, hk]
  simp only [List.length_append, List.length_drop, List.drop_drop, List.append_assoc]
  split_ifs <;> first | rfl | omega

theorem stripZeros_length (s : Bytes) : (stripZeros s).length ≤ s.length := by
  induction s with
  | nil => simp [stripZeros]
  | cons a t ih =>
    unfold stripZeros
    split
    · rename_i h
      simp only [List.cons.injEq] at h
      obtain ⟨_, rfl⟩ := h
      simp; omega
    · simp

/-- content of the mpint the writer emits: leading zero bytes removed, one put back if the top bit
is set -/
def padBody : Bytes → Bytes
  | [] => []
  | c :: t => if c &&& 0x80 != 0 then 0 :: c :: t else c :: t

@[inherit_doc padBody] def mpBody (s : Bytes) : Bytes := padBody (stripZeros s)

theorem makePosMpint_fills {s : Bytes} (h : Spec.Fits (mpBody s)) :
    Fills (fun buf => makePosMpint buf s) (Spec.str (mpBody s)) := by
  intro buf
  unfold mpBody at h ⊢
  simp only [makePosMpint]
  generalize stripZeros s = s' at h ⊢
  cases s' with
  | nil =>
    simp only [mpintPad, padBody] at h ⊢
    have : (u32TryFrom (0 + 0) : R Unit UInt32) = ok (UInt32.ofNat 0) := rfl
    simp only [ok_bind, List.length_nil, this, u32ToBe_ofNat (show 0 < 4294967296 by omega),
      str_length, Nat.add_zero, getTo]
    by_cases h4 : 4 ≤ buf.length
    · simp only [if_pos h4, ok_bind]
      simp [getRange, Spec.str, Spec.u32]
    · simp [if_neg h4]
  | cons c t =>
    simp only [mpintPad, padBody] at h ⊢
    by_cases hc : (c &&& 0x80 != 0) = true
    · simp only [hc, if_true] at h ⊢
      have e1 : (u32TryFrom (1 + (c :: t).length) : R Unit UInt32)
          = ok (UInt32.ofNat (1 + (c :: t).length)) := by
        unfold u32TryFrom; rw [if_pos]; unfold Spec.Fits at h; simp at h ⊢; omega
      have e2 : u32ToBe (UInt32.ofNat (1 + (c :: t).length)) = Spec.u32 (1 + (c :: t).length) := by
        apply u32ToBe_ofNat; unfold Spec.Fits at h; simp at h ⊢; omega
      simp only [bindAssoc, ok_bind, e1, e2]
      by_cases hl : 4 + (1 + (c :: t).length) ≤ buf.length
      · have hb : ∃ b, buf[4]? = some b := by
          rw [← Option.isSome_iff_exists, List.getElem?_eq_getElem (by omega)]; rfl
        obtain ⟨b, hb⟩ := hb
        simp only [getAt, hb, ok_bind, getTo, List.length_set, str_length, List.length_cons]
        rw [if_pos (by omega), ok_bind]
        unfold getRange
        rw [if_pos (by simp at hl ⊢; omega), if_pos (by simp at hl ⊢; omega)]
        simp only [ok_bind, R.ok.injEq, Prod.mk.injEq]
        refine ⟨by omega, ?_⟩
        obtain ⟨b0, b1, b2, b3, b4, rest, rfl⟩ :
            ∃ b0 b1 b2 b3 b4 rest, buf = b0 :: b1 :: b2 :: b3 :: b4 :: rest := by
          match buf, hl with
          | b0 :: b1 :: b2 :: b3 :: b4 :: rest, _ => exact ⟨b0, b1, b2, b3, b4, rest, rfl⟩
          | [], hl => simp at hl
          | [_], hl => simp at hl; omega
          | [_, _], hl => simp at hl; omega
          | [_, _, _], hl => simp at hl; omega
          | [_, _, _, _], hl => simp at hl; omega
        simp [Spec.str, Spec.u32, show 1 + (t.length + 1) = t.length + 1 + 1 by omega,
          show 4 + 1 + (t.length + 1) = t.length + 1 + 1 + 1 + 1 + 1 + 1 by omega,
          show 4 + (t.length + 1 + 1) = t.length + 1 + 1 + 1 + 1 + 1 + 1 by omega]
      · rw [if_neg (by simp at hl ⊢; omega)]
        unfold getAt
        cases hb : buf[4]? with
        | none => rfl
        | some b =>
          simp only [ok_bind, getTo, List.length_set]
          split_ifs with h4
          · simp only [ok_bind]
            unfold getRange
            rw [if_neg]
            · rfl
            · simp at hl ⊢; omega
          · rfl
    · simp only [hc] at h ⊢
      have e1 : (u32TryFrom (0 + (c :: t).length) : R Unit UInt32)
          = ok (UInt32.ofNat (0 + (c :: t).length)) := by
        unfold u32TryFrom; rw [if_pos]; unfold Spec.Fits at h; simp at h ⊢; omega
      have e2 : u32ToBe (UInt32.ofNat (0 + (c :: t).length)) = Spec.u32 (c :: t).length := by
        rw [Nat.zero_add]; apply u32ToBe_ofNat; unfold Spec.Fits at h; simp at h ⊢; omega
      simp only [Bool.false_eq_true, if_false, ok_bind, e1, e2]
      by_cases hl : 4 + (c :: t).length ≤ buf.length
      · rw [if_pos (by simpa using hl)]
        simp only [getTo]
        rw [if_pos (by omega), ok_bind]
        unfold getRange
        rw [if_pos (by simp at hl ⊢; omega)]
        simp only [ok_bind, R.ok.injEq, Prod.mk.injEq]
        refine ⟨by simp, ?_⟩
        obtain ⟨b0, b1, b2, b3, rest, rfl⟩ :
            ∃ b0 b1 b2 b3 rest, buf = b0 :: b1 :: b2 :: b3 :: rest := by
          match buf, hl with
          | b0 :: b1 :: b2 :: b3 :: rest, _ => exact ⟨b0, b1, b2, b3, rest, rfl⟩
          | [], hl => simp at hl
          | [_], hl => simp at hl; omega
          | [_, _], hl => simp at hl; omega
          | [_, _, _], hl => simp at hl; omega
        simp [Spec.str, Spec.u32, show 4 + (t.length + 1) = t.length + 1 + 1 + 1 + 1 + 1 by omega]
      · rw [if_neg (by simpa using hl)]
        simp only [getTo]
        split_ifs with h4
        · simp only [ok_bind]
          unfold getRange
          rw [if_neg]
          · rfl
          · simp at hl ⊢; omega
        · rfl

theorem makePosMpint2_emits {s : Bytes} (h : Spec.Fits (mpBody s)) :
    Emits (fun buf => makePosMpint2 buf s) (Spec.str (mpBody s)) := by
  intro buf
  simp only [makePosMpint2, makePosMpint_fills h buf]
  split_ifs with hl
  · simp [idxFrom]
  · rfl

end Nora
