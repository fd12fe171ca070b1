import Verif.Props.IdentExact
/-
Exactly which identification exchanges fail, and with which error.
-/
namespace Nora
open R

/-- `SSH-` is found in the stream, before it there may be ignored bytes and letters `S`; the bytes `r` follow -/
def Spec.Opened (inp r : Bytes) : Prop :=
  ∃ (blocks : List Bytes) (k : Nat), (∀ b ∈ blocks, Spec.Ignored b) ∧
    inp = blocks.flatten ++ List.replicate k 83 ++ b! "SSH-" ++ r

/-- There is no CR LF among the first bytes after `SSH-2.0-`, although these are more than an identification
string may have; a CR at the end of them is not counted, as an LF may follow. -/
def Spec.TooLong (t : Bytes) : Prop :=
  ∃ u v, t = u ++ v ∧ Spec.NoCrLf u ∧ 253 < 8 + u.length ∧ (u.getLast? = some 13 → 254 < 8 + u.length)

/-- the streams in which no identification string is found, and why -/
inductive Spec.NoGreeting (inp : Bytes) : ParseIdentError → Prop
  | nothing : (∀ r, ¬ Spec.Opened inp r) → Spec.NoGreeting inp .io
  | short {r} : Spec.Opened inp r → r.length < 4 → Spec.NoGreeting inp .io
  | version {v r} : Spec.Opened inp (v ++ r) → v.length = 4 → v ≠ b! "2.0-" →
    Spec.NoGreeting inp .incompatibleProtocol
  | long {t} : Spec.Opened inp (b! "2.0-" ++ t) → Spec.TooLong t → Spec.NoGreeting inp .identifierTooLong
  | ends {t} : Spec.Opened inp (b! "2.0-" ++ t) → Spec.NoCrLf t → ¬ Spec.TooLong t → Spec.NoGreeting inp .io

theorem Ident.skip_opened (inp r : Bytes) : Ident.skip .eolLf inp = ok r ↔ Spec.Opened inp r := by
  constructor
  · intro h
    exact Ident.skip_blocks _ inp (Nat.le_refl _) h
  · rintro ⟨blocks, k, h, rfl⟩
    rw [List.append_assoc, List.append_assoc]
    exact Ident.skip_blocks_ok blocks k r h

/-- the length without a CR at the end -/
def Ident.counted (s : Bytes) : Nat := s.length - if s.getLast? = some 13 then 1 else 0

theorem Ident.counted_cons (c : Byte) {s : Bytes} (h : s ≠ []) :
    Ident.counted (c :: s) = 1 + Ident.counted s := by
  cases s with
  | nil => exact absurd rfl h
  | cons d s =>
    simp only [Ident.counted, List.length_cons, List.getLast?_cons_cons]
    split_ifs <;> omega

theorem Ident.counted_cons_ne {c : Byte} (h : c ≠ 13) (s : Bytes) :
    Ident.counted (c :: s) = 1 + Ident.counted s := by
  cases s with
  | nil => simp [Ident.counted, h]
  | cons d s => exact Ident.counted_cons c (by simp)

/-- a CR that has been read but not stored -/
def Ident.held : Bool → Bytes
  | true => [13]
  | false => []

theorem Ident.collect_ends (t : Bytes) : ∀ (cr : Bool) (acc : Bytes), acc.length ≤ 253 →
    Spec.NoCrLf (Ident.held cr ++ t) →
    Ident.collect cr acc t =
      if acc.length + Ident.counted (Ident.held cr ++ t) ≤ 253 then err .io else err .identifierTooLong := by
  induction t with
  | nil =>
    intro cr acc ha _
    cases cr <;> simp [Ident.held, Ident.collect, Ident.counted, ha]
  | cons c t ih =>
    intro cr acc ha hn
    cases cr with
    | false =>
      by_cases hc : c = 13
      · subst hc
        rw [Ident.collect, show Ident.step2 false acc 13 = ok (some (true, acc)) from rfl]
        exact ih true acc ha hn
      · replace hn : Spec.NoCrLf (c :: t) := hn
        show Ident.collect false acc (c :: t) = if acc.length + Ident.counted (c :: t) ≤ 253 then _ else _
        rw [Ident.counted_cons_ne hc, Ident.collect]
        by_cases hl : acc.length < 253
        · simp only [Ident.step2, if_neg hc, Ident.push_ok hl, ok_bind]
          rw [ih false (acc ++ [c]) (by simp; omega) (noCrLf_tail hn)]
          simp only [Ident.held, List.nil_append, List.length_append, List.length_singleton, Nat.add_assoc]
        · simp only [Ident.step2, if_neg hc, Ident.push_err hl, err_bind]
          rw [if_neg (by omega)]
    | true =>
      replace hn : Spec.NoCrLf (13 :: c :: t) := hn
      show Ident.collect true acc (c :: t) = if acc.length + Ident.counted (13 :: c :: t) ≤ 253 then _ else _
      have hn1 := noCrLf_tail hn
      rw [Ident.counted_cons _ (by simp), Ident.collect]
      by_cases hc : c = 13
      · subst hc
        by_cases hl : acc.length < 253
        · simp only [Ident.step2, if_true, Ident.push_ok hl, ok_bind]
          rw [ih true (acc ++ [13]) (by simp; omega) hn1]
          simp only [Ident.held, List.singleton_append, List.length_append, List.length_singleton, Nat.add_assoc]
        · simp only [Ident.step2, if_true, Ident.push_err hl, err_bind]
          rw [if_neg (by omega)]
      · have hd : c ≠ 10 := by
          rintro rfl
          exact noCrLf_head hn
        rw [Ident.counted_cons_ne hc]
        by_cases hl : acc.length < 253
        · by_cases hl2 : (acc ++ [13]).length < 253
          · simp only [Ident.step2, if_neg hc, if_neg hd, Ident.push_ok hl, Ident.push_ok hl2, ok_bind]
            rw [ih false (acc ++ [13] ++ [c]) (by simp at hl2 ⊢; omega) (noCrLf_tail hn1)]
            simp only [Ident.held, List.nil_append, List.length_append, List.length_singleton, Nat.add_assoc]
          · simp only [Ident.step2, if_neg hc, if_neg hd, Ident.push_ok hl, Ident.push_err hl2, ok_bind,
              err_bind]
            simp only [List.length_append, List.length_singleton] at hl2
            rw [if_neg (by omega)]
        · simp only [Ident.step2, if_neg hc, if_neg hd, Ident.push_err hl, err_bind]
          rw [if_neg (by omega)]

theorem Ident.tooLong_open {t : Bytes} (h : Spec.NoCrLf t) :
    Spec.TooLong t ↔ 253 < 8 + Ident.counted t := by
  have e : 253 < 8 + Ident.counted t ↔ 253 < 8 + t.length ∧ (t.getLast? = some 13 → 254 < 8 + t.length) := by
    unfold Ident.counted
    split_ifs with h' <;> simp [h'] <;> omega
  rw [e]
  constructor
  · rintro ⟨u, v, rfl, h1, h2, h3⟩
    cases v with
    | nil => rw [List.append_nil]; exact ⟨h2, h3⟩
    | cons c v => simp only [List.length_append, List.length_cons]; omega
  · rintro ⟨h1, h2⟩
    exact ⟨t, [], (List.append_nil _).symm, h, h1, h2⟩

theorem Ident.tooLong_closed {t rest : Bytes} (h : Spec.NoCrLf (t ++ [13])) :
    Spec.TooLong (t ++ 13 :: 10 :: rest) ↔ 253 < 8 + t.length := by
  constructor
  · rintro ⟨u, v, e, h1, h2, h3⟩
    rcases List.append_eq_append_iff.mp e with ⟨w, rfl, h4⟩ | ⟨w, rfl, h4⟩
    · -- `u` is `t` and more
      match w, h4 with
      | [], _ => simpa using h2
      | [c], h4 =>
        simp only [List.singleton_append, List.cons.injEq] at h4
        have := h3 (by rw [← h4.1]; simp)
        simp only [List.length_append, List.length_singleton] at this
        omega
      | c :: d :: w, h4 =>
        simp only [List.cons_append, List.cons.injEq] at h4
        obtain ⟨rfl, rfl, _⟩ := h4
        exact absurd (by simp [Spec.crlf]) (h1 t w)
    · simp only [List.length_append]; omega
  · intro hl
    by_cases hc : t.getLast? = some 13
    · exact ⟨t ++ [13], 10 :: rest, by simp, h, by simp; omega, by simp; omega⟩
    · exact ⟨t, 13 :: 10 :: rest, rfl, noCrLf_left h, hl, fun h => absurd h hc⟩

/-- C21: exactly which streams are not accepted as identification exchange, and with which error -/
theorem C21_errors (inp : Bytes) (e : ParseIdentError) :
    Ident.parseStream inp = err e ↔ Spec.NoGreeting inp e := by
  rcases Ident.skip_cases inp .eolLf with h0 | ⟨r, h0⟩
  · have hno : ∀ r, ¬ Spec.Opened inp r := by
      intro r h
      rw [← Ident.skip_opened, h0] at h
      cases h
    rw [Ident.parseStream, h0]
    constructor
    · intro h; cases h; exact .nothing hno
    · intro h
      cases h with
      | nothing => rfl
      | short h | version h | long h | ends h => exact absurd h (hno _)
  · have ho := (Ident.skip_opened inp r).mp h0
    have huniq : ∀ {r'}, Spec.Opened inp r' → r' = r := by
      intro r' h
      rw [← Ident.skip_opened, h0] at h
      cases h; rfl
    rw [Ident.after_skip h0]
    by_cases h4 : r.length < 4
    · have : Nora.split r 4 = (err () : R Unit _) := by
        simp [Nora.split]; omega
      rw [this]
      constructor
      · intro h; cases h; exact .short ho h4
      · intro h
        cases h with
        | nothing h => exact absurd ho (h _)
        | short => rfl
        | version h h' =>
          have := huniq h
          rw [← this, List.length_append] at h4; omega
        | long h | ends h =>
          have := huniq h
          rw [← this, List.length_append] at h4; simp at h4; omega
    · obtain ⟨v, t, rfl, hv⟩ : ∃ v t, r = v ++ t ∧ v.length = 4 :=
        ⟨r.take 4, r.drop 4, (List.take_append_drop ..).symm, by simp; omega⟩
      have hs : Nora.split (v ++ t) 4 = (ok (v, t) : R Unit _) := split_eq_ok.mpr ⟨hv, rfl⟩
      rw [hs]
      by_cases hv2 : v = b! "2.0-"
      · subst hv2
        simp only [ok_okOr, ok_bind, if_true]
        rcases crlf_split t with hn | ⟨u, rest, rfl, hn⟩
        · have hc := Ident.collect_ends t false (b! "SSH-2.0-") (by decide) hn
          rw [show Ident.held false ++ t = t from rfl, show List.length (b! "SSH-2.0-") = 8 from rfl] at hc
          by_cases hl : Spec.TooLong t
          · have hl' := (Ident.tooLong_open hn).mp hl
            rw [hc, if_neg (by omega)]
            constructor
            · intro h; cases h; exact .long ho hl
            · intro h
              cases h with
              | nothing h => exact absurd ho (h _)
              | short h h' => rw [huniq h] at h'; omega
              | version h g1 g2 => exact absurd (List.append_inj (huniq h) (by rw [g1]; rfl)).1 g2
              | long => rfl
              | ends h _ g => exact absurd hl (List.append_cancel_left (huniq h) ▸ g)
          · have hl' := mt (Ident.tooLong_open hn).mpr hl
            rw [hc, if_pos (by omega)]
            constructor
            · intro h; cases h; exact .ends ho hn hl
            · intro h
              cases h with
              | nothing h => exact absurd ho (h _)
              | short h h' => rw [huniq h] at h'; omega
              | version h g1 g2 => exact absurd (List.append_inj (huniq h) (by rw [g1]; rfl)).1 g2
              | long h g => exact absurd (List.append_cancel_left (huniq h) ▸ g) hl
              | ends => rfl
        · rw [Ident.collect_start rest (noCrLf_left hn)]
          have hl := Ident.tooLong_closed (rest := rest) hn
          by_cases h253 : 8 + u.length ≤ 253
          · rw [if_pos h253]
            constructor
            · intro h
              rw [ok_bind, Ident.new, if_pos (by rw [List.length_append]; exact h253)] at h
              cases h
            · intro h
              cases h with
              | nothing h => exact absurd ho (h _)
              | short h h' => rw [huniq h] at h'; omega
              | version h g1 g2 => exact absurd (List.append_inj (huniq h) (by rw [g1]; rfl)).1 g2
              | long h g =>
                have := hl.mp (List.append_cancel_left (huniq h) ▸ g)
                omega
              | ends h g =>
                rw [List.append_cancel_left (huniq h)] at g
                exact absurd (by simp [Spec.crlf]) (g u rest)
          · rw [if_neg h253]
            constructor
            · intro h; cases h; exact .long ho (hl.mpr (by omega))
            · intro h
              cases h with
              | nothing h => exact absurd ho (h _)
              | short h h' => rw [huniq h] at h'; omega
              | version h g1 g2 => exact absurd (List.append_inj (huniq h) (by rw [g1]; rfl)).1 g2
              | long => rfl
              | ends h g =>
                rw [List.append_cancel_left (huniq h)] at g
                exact absurd (by simp [Spec.crlf]) (g u rest)
      · simp only [ok_okOr, ok_bind, if_neg hv2]
        constructor
        · intro h; cases h; exact .version ho hv hv2
        · intro h
          cases h with
          | nothing h => exact absurd ho (h _)
          | short h h' => rw [huniq h] at h'; omega
          | version => rfl
          | long h | ends h =>
            exact absurd (List.append_inj (huniq h) (by rw [hv]; rfl)).1.symm hv2

/-- another version of the protocol -/
example : Spec.NoGreeting (b! "hello\r\nSSH-1.99-x\r\n") .incompatibleProtocol :=
  (C21_errors _ _).mp (by decide)

/-- the line ends with LF alone, and the stream ends -/
example : Spec.NoGreeting (b! "SSH-2.0-x\n") .io := (C21_errors _ _).mp (by decide)

/-- the line is too long: 246 bytes after `SSH-2.0-`, and what follows is not looked at -/
example (rest : Bytes) : Spec.NoGreeting (b! "SSH-2.0-" ++ List.replicate 246 120 ++ rest) .identifierTooLong := by
  refine .long (t := List.replicate 246 120 ++ rest) ⟨[], 0, by simp, ?_⟩
    ⟨List.replicate 246 120, rest, rfl, ?_, ?_, ?_⟩
  · rfl
  · intro a b h
    have : (13 : Byte) ∈ List.replicate 246 (120 : Byte) := by rw [h]; simp [Spec.crlf]
    exact absurd (List.eq_of_mem_replicate this) (by decide)
  · rw [List.length_replicate]; omega
  · intro h
    exact absurd (List.eq_of_mem_replicate (List.mem_of_getLast? h)) (by decide)

/-- 245 bytes and a CR are not too long yet -/
example : ¬ Spec.NoGreeting (b! "SSH-2.0-" ++ List.replicate 245 120 ++ [13]) .identifierTooLong := by
  rw [← C21_errors]; decide +kernel

end Nora
