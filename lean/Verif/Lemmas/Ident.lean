import Verif.Lemmas.Io
import Verif.Model.Identifier
import Verif.Spec.Ident
/-
Lemmas about the identification string automaton.
-/
namespace Nora
open R

theorem noCrLf_tail {c : Byte} {s : Bytes} (h : Spec.NoCrLf (c :: s)) : Spec.NoCrLf s :=
  fun a b e => h (c :: a) b (by rw [e]; rfl)

theorem noCrLf_head {s : Bytes} (h : Spec.NoCrLf (13 :: 10 :: s)) : False := h [] s rfl

/-- a stream has no CR LF or a first one -/
theorem crlf_split (s : Bytes) :
    Spec.NoCrLf s ∨ ∃ t r, s = t ++ 13 :: 10 :: r ∧ Spec.NoCrLf (t ++ [13]) := by
  induction s with
  | nil =>
    left; intro a b e
    have := congrArg List.length e
    simp [Spec.crlf] at this
  | cons c s ih =>
    by_cases hc : ∃ r, c :: s = 13 :: 10 :: r
    · obtain ⟨r, hr⟩ := hc
      right
      refine ⟨[], r, hr, ?_⟩
      intro a b e
      have := congrArg List.length e
      simp [Spec.crlf] at this
      omega
    · have key : ∀ t, (∀ r, c :: t ≠ 13 :: 10 :: r) → Spec.NoCrLf t → Spec.NoCrLf (c :: t) := by
        intro t h1 h2 a b e
        cases a with
        | nil => exact h1 b e
        | cons x a =>
          simp only [List.cons_append, List.cons.injEq] at e
          exact h2 a b e.2
      rcases ih with h | ⟨t, r, rfl, h⟩
      · left
        exact key s (fun r hr => hc ⟨r, hr⟩) h
      · right
        refine ⟨c :: t, r, rfl, ?_⟩
        refine key (t ++ [13]) ?_ h
        intro r' e
        cases t with
        | nil => simp at e
        | cons y t =>
          simp only [List.cons_append, List.cons.injEq] at e hc
          exact hc ⟨t ++ 13 :: 10 :: r, e.1, e.2.1, rfl⟩

theorem noCrLf_left {s t : Bytes} (h : Spec.NoCrLf (s ++ t)) : Spec.NoCrLf s :=
  fun a b e => h a (b ++ t) (by rw [e]; simp)

/-- appending the CR of the terminator makes no CR LF -/
theorem noCrLf_cr {s : Bytes} (h : Spec.NoCrLf s) : Spec.NoCrLf (s ++ [13]) := by
  intro a b e
  rcases List.eq_nil_or_concat b with rfl | ⟨b', x, rfl⟩
  · have := congrArg List.getLast? e
    simp [Spec.crlf] at this
  · rw [List.concat_eq_append, ← List.append_assoc] at e
    have := List.append_inj' e rfl
    exact h a b' this.1

/-- a CR held back -/
private def pend (cr : Bool) : Bytes := if cr then [13] else []

theorem Ident.push_ok {acc : Bytes} {c : Byte} (h : acc.length < 253) :
    Ident.push acc c = ok (acc ++ [c]) := if_pos h

theorem Ident.push_err {acc : Bytes} {c : Byte} (h : ¬ acc.length < 253) :
    Ident.push acc c = err .identifierTooLong := if_neg h

theorem Ident.collect_run (t : Bytes) : ∀ (cr : Bool) (acc rest : Bytes), acc.length ≤ 253 →
    Spec.NoCrLf (pend cr ++ t) →
    Ident.collect cr acc (t ++ 13 :: 10 :: rest) =
      if acc.length + (pend cr).length + t.length ≤ 253 then ok (acc ++ pend cr ++ t, rest)
      else err .identifierTooLong := by
  induction t with
  | nil =>
    intro cr acc rest ha hn
    cases cr with
    | false => simp [pend, Ident.collect, Ident.step2, ha]
    | true =>
      by_cases h : acc.length < 253
      · simp [pend, Ident.collect, Ident.step2, Ident.push, Ident.maxLen, h]; omega
      · simp [pend, Ident.collect, Ident.step2, Ident.push, Ident.maxLen, h]; omega
  | cons c t ih =>
    intro cr acc rest ha hn
    cases cr with
    | false =>
      by_cases h13 : c = 13
      · subst h13
        have := ih true acc rest ha hn
        simp only [List.cons_append, Ident.collect, Ident.step2, if_true, this]
        simp only [pend, if_true, List.length_cons, List.length_nil, Bool.false_eq_true, if_false]
        rw [show acc.length + (0 + 1) + t.length = acc.length + 0 + (t.length + 1) by omega]
        simp
      · by_cases h : acc.length < 253
        · have := ih false (acc ++ [c]) rest (by simp; omega) (noCrLf_tail hn)
          simp only [List.cons_append, Ident.collect, Ident.step2, if_neg h13, Ident.push_ok h, ok_bind, this]
          simp only [pend, Bool.false_eq_true, if_false, List.length_append, List.length_cons,
            List.length_nil]
          rw [show acc.length + (0 + 1) + 0 + t.length = acc.length + 0 + (t.length + 1) by omega]
          simp
        · simp only [List.cons_append, Ident.collect, Ident.step2, if_neg h13, Ident.push_err h, err_bind]
          rw [if_neg (by simp; omega)]
    | true =>
      have h10 : c ≠ 10 := by rintro rfl; exact noCrLf_head hn
      have hn' : Spec.NoCrLf (c :: t) := noCrLf_tail (c := 13) hn
      by_cases h : acc.length < 253
      · by_cases h13 : c = 13
        · subst h13
          have := ih true (acc ++ [13]) rest (by simp; omega) hn'
          simp only [List.cons_append, Ident.collect, Ident.step2, if_true, Ident.push_ok h, ok_bind, this]
          simp only [pend, if_true, List.length_append, List.length_cons,
            List.length_nil]
          rw [show acc.length + (0 + 1) + (0 + 1) + t.length =
            acc.length + (0 + 1) + (t.length + 1) by omega]
          simp
        · by_cases h' : acc.length + 1 < 253
          · have := ih false (acc ++ [13] ++ [c]) rest (by simp; omega) (noCrLf_tail hn')
            simp only [List.cons_append, Ident.collect, Ident.step2, if_neg h13, if_neg h10,
              Ident.push_ok h, ok_bind]
            rw [Ident.push_ok (by simp; omega)]
            simp only [ok_bind, this]
            simp only [pend, Bool.false_eq_true, if_false, if_true, List.length_append,
              List.length_cons, List.length_nil]
            rw [show acc.length + (0 + 1) + (0 + 1) + 0 + t.length =
              acc.length + (0 + 1) + (t.length + 1) by omega]
            simp
          · simp only [List.cons_append, Ident.collect, Ident.step2, if_neg h13, if_neg h10,
              Ident.push_ok h, ok_bind]
            rw [Ident.push_err (by simp; omega)]
            simp only [err_bind]
            rw [if_neg (by simp [pend]; omega)]
      · rw [if_neg (by simp [pend]; omega)]
        by_cases h13 : c = 13
        · simp only [List.cons_append, Ident.collect, Ident.step2, if_pos h13, Ident.push_err h, err_bind]
        · simp only [List.cons_append, Ident.collect, Ident.step2, if_neg h13, if_neg h10,
            Ident.push_err h, err_bind]

theorem Ident.collect_none (t : Bytes) : ∀ (cr : Bool) (acc : Bytes),
    Spec.NoCrLf (pend cr ++ t) →
    Ident.collect cr acc t = err .io ∨ Ident.collect cr acc t = err .identifierTooLong := by
  induction t with
  | nil => intro cr acc _; left; rfl
  | cons c t ih =>
    intro cr acc hn
    cases cr with
    | false =>
      by_cases h13 : c = 13
      · subst h13
        simpa [Ident.collect, Ident.step2] using ih true acc hn
      · by_cases h : acc.length < 253
        · simpa [Ident.collect, Ident.step2, Ident.push, Ident.maxLen, h, h13] using
            ih false (acc ++ [c]) (noCrLf_tail hn)
        · right; simp [Ident.collect, Ident.step2, Ident.push, Ident.maxLen, h, h13]
    | true =>
      have h10 : c ≠ 10 := by rintro rfl; exact noCrLf_head hn
      have hn' : Spec.NoCrLf (c :: t) := noCrLf_tail (c := 13) hn
      by_cases h : acc.length < 253
      · by_cases h13 : c = 13
        · subst h13
          simpa [Ident.collect, Ident.step2, Ident.push, Ident.maxLen, h] using
            ih true (acc ++ [13]) hn'
        · by_cases h' : acc.length + 1 < 253
          · simpa [Ident.collect, Ident.step2, Ident.push, Ident.maxLen, h, h', h13, h10] using
              ih false (acc ++ [13, c]) (noCrLf_tail hn')
          · right; simp [Ident.collect, Ident.step2, Ident.push, Ident.maxLen, h, h', h13, h10]
      · right
        by_cases h13 : c = 13
        · simp [Ident.collect, Ident.step2, Ident.push, Ident.maxLen, h, h13]
        · simp [Ident.collect, Ident.step2, Ident.push, Ident.maxLen, h, h13, h10]

/-- what was read before a state of the first loop -/
private def Hist : Ident.State → Bytes → Prop
  | .eolLf, h => Spec.LineStart h
  | .s, h => ∃ q, Spec.LineStart q ∧ h = q ++ [83]
  | .ss, h => ∃ q k, Spec.LineStart q ∧ h = q ++ List.replicate k 83 ++ [83, 83]
  | .ssh, h => ∃ q k, Spec.LineStart q ∧ h = q ++ List.replicate k 83 ++ [83, 83, 72]
  | .eolCr, h => ∃ q, h = q ++ [13]
  | .ignore, _ => True

theorem Ident.skip_sound (inp : Bytes) : ∀ st h rest, Ident.skip st inp = ok rest →
    Hist st h →
    ∃ q k, Spec.LineStart q ∧ h ++ inp = q ++ List.replicate k 83 ++ b! "SSH-" ++ rest := by
  induction inp with
  | nil => intro st h rest hs _; cases hs
  | cons b t ih =>
    intro st h rest hs hh
    rw [Ident.skip] at hs
    have hap : h ++ b :: t = (h ++ [b]) ++ t := by simp
    rw [hap]
    cases st with
    | eolLf =>
      by_cases hb : b = 83
      · simp only [Ident.step, if_pos hb] at hs
        exact ih _ _ _ hs ⟨h, hh, by rw [hb]⟩
      · simp only [Ident.step, if_neg hb] at hs
        exact ih _ _ _ hs trivial
    | s =>
      by_cases hb : b = 83
      · simp only [Ident.step, if_pos hb] at hs
        obtain ⟨q, hq, rfl⟩ := hh
        exact ih _ _ _ hs ⟨q, 0, hq, by rw [hb]; simp⟩
      · simp only [Ident.step, if_neg hb] at hs
        exact ih _ _ _ hs trivial
    | ss =>
      obtain ⟨q, k, hq, rfl⟩ := hh
      by_cases hb : b = 83
      · simp only [Ident.step, if_pos hb] at hs
        refine ih _ _ _ hs ⟨q, k + 1, hq, ?_⟩
        rw [hb, List.replicate_succ']; simp
      · by_cases hb' : b = 72
        · simp only [Ident.step, if_neg hb, if_pos hb'] at hs
          exact ih _ _ _ hs ⟨q, k, hq, by rw [hb']; simp⟩
        · simp only [Ident.step, if_neg hb, if_neg hb'] at hs
          exact ih _ _ _ hs trivial
    | ssh =>
      by_cases hb : b = 45
      · simp only [Ident.step, if_pos hb] at hs
        obtain ⟨q, k, hq, rfl⟩ := hh
        injection hs with hs
        exact ⟨q, k, hq, by rw [hb, hs]; simp⟩
      · simp only [Ident.step, if_neg hb] at hs
        exact ih _ _ _ hs trivial
    | ignore =>
      by_cases hb : b = 13
      · simp only [Ident.step, if_pos hb] at hs
        exact ih _ _ _ hs ⟨h, by rw [hb]⟩
      · simp only [Ident.step, if_neg hb] at hs
        exact ih _ _ _ hs trivial
    | eolCr =>
      by_cases hb : b = 10
      · simp only [Ident.step, if_pos hb] at hs
        obtain ⟨q, rfl⟩ := hh
        exact ih _ _ _ hs (.inr ⟨q, by rw [hb]; simp [Spec.crlf]⟩)
      · simp only [Ident.step, if_neg hb] at hs
        exact ih _ _ _ hs trivial

theorem Ident.skip_cases (inp : Bytes) : ∀ st,
    Ident.skip st inp = err .io ∨ ∃ rest, Ident.skip st inp = ok rest := by
  induction inp with
  | nil => intro st; left; rfl
  | cons b t ih =>
    intro st
    rw [Ident.skip]
    cases Ident.step st b with
    | none => exact .inr ⟨t, rfl⟩
    | some st => exact ih st

/-- a line whose rest has no CR is ignored up to its end -/
theorem Ident.skip_ignore (t : Bytes) (rest : Bytes) (h : (13 : Byte) ∉ t) :
    Ident.skip .ignore (t ++ 13 :: 10 :: rest) = Ident.skip .eolLf rest := by
  induction t with
  | nil => rfl
  | cons c t ih =>
    simp only [List.mem_cons, not_or] at h
    rw [List.cons_append, Ident.skip]
    simp only [Ident.step, if_neg (Ne.symm h.1)]
    exact ih h.2

theorem Ident.pushAll_start : Ident.pushAll [] (b! "SSH-2.0-") = ok (b! "SSH-2.0-") := by decide

/-- the part after the first loop -/
theorem Ident.after_skip {inp rest : Bytes} (h : Ident.skip .eolLf inp = ok rest) :
    Ident.parseStream inp = (do
      let (b, inp) ← (Nora.split rest 4).okOr .io
      if b = b! "2.0-" then do
        let (acc, inp) ← Ident.collect false (b! "SSH-2.0-") inp
        let id ← (Ident.new acc).okOr .identifierTooLong
        .ok (id, inp)
      else .err .incompatibleProtocol) := by
  unfold Ident.parseStream
  rw [h, ok_bind]
  simp only [Ident.pushAll_start, ok_bind]

/-- the second loop from its start -/
theorem Ident.collect_start {t : Bytes} (rest : Bytes) (h : Spec.NoCrLf t) :
    Ident.collect false (b! "SSH-2.0-") (t ++ 13 :: 10 :: rest) =
      if 8 + t.length ≤ 253 then ok (b! "SSH-2.0-" ++ t, rest) else err .identifierTooLong := by
  have := Ident.collect_run t false (b! "SSH-2.0-") rest (by decide) h
  simpa [pend] using this

theorem Ident.collect_start_none {t : Bytes} (h : Spec.NoCrLf t) :
    Ident.collect false (b! "SSH-2.0-") t = err .io ∨
    Ident.collect false (b! "SSH-2.0-") t = err .identifierTooLong :=
  Ident.collect_none t false _ h

theorem Ident.skip_start {inp rest : Bytes} (h : Ident.skip .eolLf inp = ok rest) :
    ∃ q k, Spec.LineStart q ∧ inp = q ++ List.replicate k 83 ++ b! "SSH-" ++ rest :=
  Ident.skip_sound inp .eolLf [] rest h (.inl rfl)

end Nora
