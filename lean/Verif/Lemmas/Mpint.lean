import Verif.Lemmas.MsgSer
/-
The positive mpint writer.
-/
namespace Nora
open R

theorem beVal_foldl (s : Bytes) (n : Nat) :
    s.foldl (fun n b => 256 * n + b.toNat) n = n * 256 ^ s.length + Spec.beVal s := by
  unfold Spec.beVal
  induction s generalizing n with
  | nil => simp
  | cons a t ih =>
    simp only [List.foldl_cons, List.length_cons]
    rw [ih, ih (256 * 0 + a.toNat), Nat.pow_succ]
    have : (256 * n + a.toNat) * 256 ^ t.length
        = n * (256 ^ t.length * 256) + a.toNat * 256 ^ t.length := by
      rw [Nat.add_mul, Nat.mul_comm 256 n, Nat.mul_assoc, Nat.mul_comm 256]
    rw [this]; simp; omega

theorem beVal_cons (a : Byte) (t : Bytes) :
    Spec.beVal (a :: t) = a.toNat * 256 ^ t.length + Spec.beVal t := by
  have := beVal_foldl t (256 * 0 + a.toNat)
  simpa [Spec.beVal] using this

theorem beVal_zero_cons (t : Bytes) : Spec.beVal (0 :: t) = Spec.beVal t := by
  rw [beVal_cons]; simp

theorem beVal_lt (s : Bytes) : Spec.beVal s < 256 ^ s.length := by
  induction s with
  | nil => simp [Spec.beVal]
  | cons a t ih =>
    rw [beVal_cons, List.length_cons, Nat.pow_succ]
    have := a.toNat_lt
    have h2 : a.toNat * 256 ^ t.length ≤ 255 * 256 ^ t.length :=
      Nat.mul_le_mul_right _ (by omega)
    omega

/-- equal length and equal value: equal strings -/
theorem beVal_inj {s t : Bytes} (hl : s.length = t.length) (h : Spec.beVal s = Spec.beVal t) :
    s = t := by
  induction s generalizing t with
  | nil => cases t with
    | nil => rfl
    | cons b t => simp at hl
  | cons a s ih =>
    cases t with
    | nil => simp at hl
    | cons b t =>
      simp only [List.length_cons, Nat.add_right_cancel_iff] at hl
      rw [beVal_cons, beVal_cons, hl] at h
      have h1 := beVal_lt s
      have h2 := beVal_lt t
      rw [hl] at h1
      have key : a.toNat = b.toNat := by
        rcases Nat.lt_trichotomy a.toNat b.toNat with c | c | c
        · have : (a.toNat + 1) * 256 ^ t.length ≤ b.toNat * 256 ^ t.length :=
            Nat.mul_le_mul_right _ c
          rw [Nat.add_mul] at this; omega
        · exact c
        · have : (b.toNat + 1) * 256 ^ t.length ≤ a.toNat * 256 ^ t.length :=
            Nat.mul_le_mul_right _ c
          rw [Nat.add_mul] at this; omega
      rw [key] at h
      rw [UInt8.toNat_inj] at key
      rw [key, ih hl (by omega)]

theorem stripZeros_zero (t : Bytes) : stripZeros (0 :: t) = stripZeros t := by
  rw [stripZeros]

theorem stripZeros_cons {a : Byte} {t : Bytes} (h : a ≠ 0) : stripZeros (a :: t) = a :: t := by
  unfold stripZeros
  split
  · rename_i heq; simp only [List.cons.injEq] at heq; exact absurd heq.1 h
  · rfl

theorem beVal_stripZeros (s : Bytes) : Spec.beVal (stripZeros s) = Spec.beVal s := by
  induction s with
  | nil => rfl
  | cons a t ih =>
    by_cases h : a = 0
    · rw [h, stripZeros_zero, ih, beVal_zero_cons]
    · rw [stripZeros_cons h]

theorem stripZeros_head {s : Bytes} {a : Byte} {t : Bytes} (h : stripZeros s = a :: t) : a ≠ 0 := by
  induction s with
  | nil => simp [stripZeros] at h
  | cons b r ih =>
    by_cases hb : b = 0
    · rw [hb, stripZeros_zero] at h; exact ih h
    · rw [stripZeros_cons hb] at h; cases h; exact hb

set_option maxRecDepth 4000 in
theorem topBit_iff (c : Byte) : (c &&& 0x80 != 0) = true ↔ 128 ≤ c.toNat := by
  have key : ∀ n : Fin 256, ((UInt8.ofNat n.val &&& 0x80 != 0) = true ↔ 128 ≤ n.val) := by decide
  have h := key ⟨c.toNat, c.toNat_lt⟩
  simpa using h

theorem mpBody_spec (s : Bytes) : Spec.MpintBody (Spec.beVal s) (mpBody s) := by
  unfold mpBody
  rw [← beVal_stripZeros s]
  cases h : stripZeros s with
  | nil => simp [padBody, Spec.MpintBody]
  | cons a t =>
    have ha := stripZeros_head h
    have han : a.toNat ≠ 0 := by
      intro h0; apply ha; rw [← UInt8.toNat_inj]; exact h0
    simp only [padBody]
    by_cases hc : (a &&& 0x80 != 0) = true
    · rw [if_pos hc]
      rw [topBit_iff] at hc
      refine ⟨beVal_zero_cons _, by simp, ?_, by simp⟩
      intro x y r he _
      cases he; exact hc
    · rw [if_neg hc]
      rw [topBit_iff] at hc
      refine ⟨rfl, ?_, ?_, by simp [ha]⟩
      · intro x hx; cases hx; omega
      · intro x y r he h0; cases he; exact absurd h0 ha

/-- a canonical mpint body is written unchanged -/
theorem mpBody_canonical {n : Nat} {s : Bytes} (h : Spec.MpintBody n s) : mpBody s = s := by
  obtain ⟨_, h1, h2, h3⟩ := h
  unfold mpBody
  match s with
  | [] => rfl
  | a :: t =>
    have ha := h1 a rfl
    by_cases h0 : a = 0
    · subst h0
      match t with
      | [] => exact absurd rfl h3
      | b :: r =>
        have hb := h2 0 b r rfl rfl
        have hb0 : b ≠ 0 := by rintro rfl; simp at hb
        rw [stripZeros_zero, stripZeros_cons hb0]
        simp only [padBody]
        rw [if_pos ((topBit_iff b).mpr hb)]
    · rw [stripZeros_cons h0]
      simp only [padBody]
      rw [if_neg (by rw [topBit_iff]; omega)]

theorem stripZeros_prefix (k : Nat) (s : Bytes) :
    stripZeros (List.replicate k 0 ++ s) = stripZeros s := by
  induction k with
  | zero => rfl
  | succ k ih => rw [List.replicate_succ, List.cons_append, stripZeros_zero, ih]

/-- leading zeros do not change the mpint -/
theorem mpBody_prefix (k : Nat) (s : Bytes) : mpBody (List.replicate k 0 ++ s) = mpBody s := by
  unfold mpBody; rw [stripZeros_prefix]

theorem stripZeros_eq_drop (s : Bytes) :
    ∃ k, s = List.replicate k 0 ++ stripZeros s := by
  induction s with
  | nil => exact ⟨0, rfl⟩
  | cons a t ih =>
    by_cases h : a = 0
    · obtain ⟨k, hk⟩ := ih
      exact ⟨k + 1, by rw [h, stripZeros_zero, List.replicate_succ, List.cons_append, ← hk]⟩
    · exact ⟨0, by rw [stripZeros_cons h]; rfl⟩

theorem beVal_pos {a : Byte} {t : Bytes} (h : a ≠ 0) : 256 ^ t.length ≤ Spec.beVal (a :: t) := by
  rw [beVal_cons]
  have : 1 ≤ a.toNat := by
    rcases Nat.eq_zero_or_pos a.toNat with h0 | h0
    · exact absurd (by rw [← UInt8.toNat_inj]; exact h0) h
    · exact h0
  have := Nat.mul_le_mul_right (256 ^ t.length) this
  omega

theorem stripZeros_unique {s t : Bytes} (h : Spec.beVal s = Spec.beVal t) :
    stripZeros s = stripZeros t := by
  rw [← beVal_stripZeros s, ← beVal_stripZeros t] at h
  have lenle : ∀ {x y : Bytes}, Spec.beVal (stripZeros x) = Spec.beVal (stripZeros y) →
      (stripZeros x).length ≤ (stripZeros y).length := by
    intro x y hxy
    cases hx : stripZeros x with
    | nil => simp
    | cons a r =>
      have h1 := beVal_pos (t := r) (stripZeros_head hx)
      have h2 := beVal_lt (stripZeros y)
      rw [← hxy, hx] at h2
      have : 256 ^ r.length < 256 ^ (stripZeros y).length := by omega
      have := (Nat.pow_lt_pow_iff_right (by omega : 1 < 256)).mp this
      simp; omega
  exact beVal_inj (Nat.le_antisymm (lenle h) (lenle h.symm)) h

/-- the mpint body of a number is unique -/
theorem mpintBody_unique {n : Nat} {s t : Bytes} (hs : Spec.MpintBody n s)
    (ht : Spec.MpintBody n t) : s = t := by
  rw [← mpBody_canonical hs, ← mpBody_canonical ht]
  unfold mpBody
  rw [stripZeros_unique (hs.1.trans ht.1.symm)]

theorem mpBody_length (s : Bytes) : (mpBody s).length ≤ s.length + 1 := by
  have := stripZeros_length s
  unfold mpBody padBody
  split
  · simp
  · rename_i h; rw [h] at this
    simp at this
    split_ifs <;> simp <;> omega

theorem Kex.EcdhReply.fills {o : Kex.EcdhReply} (h : Spec.WF (.kexEcdhReply o)) :
    Fills o.serialize (Spec.body 1 (.kexEcdhReply o)) := by
  obtain ⟨h1, h2, h3, ⟨n, hn⟩, ⟨m, hm⟩⟩ := h
  have := Kex.EcdhReply.fills' (o := o) h1 h2 (by rw [mpBody_canonical hn, mpBody_canonical hm]; exact h3)
  rw [mpBody_canonical hn, mpBody_canonical hm] at this
  exact this

/-- serialising any well-formed message -/
theorem Message.serialize_eq_all {m : Message} (h : Spec.WF m) (buf : Bytes) :
    m.serialize buf = if (Spec.encode m).length ≤ buf.length then
      ok (Spec.encode m, buf.drop (Spec.encode m).length) else err () := by
  by_cases hm : Spec.isReply m = false
  · exact Message.serialize_eq hm h buf
  · cases m with
    | kexEcdhReply o => exact splitAtP_of_fills (serTy_fills 31 (Kex.EcdhReply.fills h) buf)
    | _ => simp [Spec.isReply] at hm

end Nora
