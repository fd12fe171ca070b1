import Verif.Props.Ident
/-
Property C20, exactly: which lines before the identification string are skipped.
-/
namespace Nora
open R

/-- the start of a line after which the rest of the line is ignored: something that cannot become
`S…SSH-` any more -/
def Spec.Head (p : Bytes) : Prop :=
  (∃ c, c ≠ 83 ∧ p = [c]) ∨ (∃ c, c ≠ 83 ∧ p = [83, c]) ∨
  (∃ k c, c ≠ 83 ∧ c ≠ 72 ∧ p = List.replicate (k + 2) 83 ++ [c]) ∨
  (∃ k c, c ≠ 45 ∧ p = List.replicate (k + 2) 83 ++ [72, c])

/-- `u` ends in exactly `n` CRs -/
def Spec.TrailingCr (u : Bytes) (n : Nat) : Prop :=
  ∃ v, u = v ++ List.replicate n 13 ∧ v.getLast? ≠ some 13

/-- the lines that are skipped: such a start, and then a rest that ends in an even number of CRs -/
def Spec.Skipped (l : Bytes) : Prop :=
  ∃ p u j, Spec.Head p ∧ l = p ++ u ∧ Spec.TrailingCr u (2 * j)

namespace Ident

/-- the state after some bytes; `none` after `break` -/
def walk (st : State) : Bytes → Option State
  | [] => some st
  | b :: t => match step st b with
    | none => none
    | some st => walk st t

theorem skip_walk {st st' : State} {l : Bytes} (h : walk st l = some st') (r : Bytes) :
    skip st (l ++ r) = skip st' r := by
  induction l generalizing st with
  | nil => cases h; rfl
  | cons b t ih =>
    rw [List.cons_append, skip]
    simp only [walk] at h
    cases e : step st b with
    | none => rw [e] at h; simp at h
    | some st1 => rw [e] at h; exact ih h

theorem walk_append {st st' : State} {l : Bytes} (h : walk st l = some st') (r : Bytes) :
    walk st (l ++ r) = walk st' r := by
  induction l generalizing st with
  | nil => cases h; rfl
  | cons b t ih =>
    rw [List.cons_append, walk]
    simp only [walk] at h
    cases e : step st b with
    | none => rw [e] at h; simp at h
    | some st1 => rw [e] at h; exact ih h

theorem trailing_unique {u : Bytes} {m n : Nat} (h : Spec.TrailingCr u m) (h' : Spec.TrailingCr u n) :
    m = n := by
  have key : ∀ {m n : Nat}, m < n → Spec.TrailingCr u m → Spec.TrailingCr u n → False := by
    intro m n hlt ⟨v, e, hv⟩ ⟨w, e', _⟩
    obtain ⟨d, rfl⟩ := Nat.exists_eq_add_of_lt hlt
    have : v = w ++ List.replicate (d + 1) 13 := by
      rw [show m + d + 1 = (d + 1) + m by omega, ← List.replicate_append_replicate,
        ← List.append_assoc] at e'
      exact (List.append_inj' (e.symm.trans e') rfl).1
    apply hv
    rw [this, List.replicate_succ', ← List.append_assoc, List.getLast?_concat]
  rcases Nat.lt_trichotomy m n with hl | hl | hl
  · exact (key hl h h').elim
  · exact hl
  · exact (key hl h' h).elim

theorem trailing_cons {u : Bytes} {n : Nat} (c : Byte) (hc : c ≠ 13) (h : Spec.TrailingCr u n) :
    Spec.TrailingCr (c :: u) n := by
  obtain ⟨v, rfl, hv⟩ := h
  refine ⟨c :: v, rfl, ?_⟩
  cases v with
  | nil => simpa using hc
  | cons d v => simpa [List.getLast?_cons_cons] using hv

/-- one CR more in front changes nothing, or it is one of the CRs at the end -/
theorem trailing_cr {u : Bytes} {n : Nat} (h : Spec.TrailingCr u n) :
    (u = List.replicate n 13 ∧ Spec.TrailingCr (13 :: u) (n + 1)) ∨
      (u ≠ List.replicate n 13 ∧ Spec.TrailingCr (13 :: u) n) := by
  obtain ⟨v, rfl, hv⟩ := h
  cases v with
  | nil => exact .inl ⟨rfl, [], by simp [List.replicate_succ], by simp⟩
  | cons d v =>
    refine .inr ⟨fun e => ?_, 13 :: d :: v, rfl, by rwa [List.getLast?_cons_cons]⟩
    have := congrArg List.length e
    simp at this
    omega

/-- what becomes of the rest of an ignored line -/
theorem walk_ignore (u : Bytes) : Spec.NoCrLf u →
    ∃ n, Spec.TrailingCr u n ∧ walk .ignore u = some (if n % 2 = 0 then .ignore else .eolCr) := by
  have main : ∀ (m : Nat) (u : Bytes), u.length ≤ m → Spec.NoCrLf u →
    ∃ n, Spec.TrailingCr u n ∧ walk .ignore u = some (if n % 2 = 0 then .ignore else .eolCr) := by
    intro m
    induction m with
    | zero =>
      intro u hm _
      cases u with
      | nil => exact ⟨0, ⟨[], rfl, by simp⟩, rfl⟩
      | cons => simp at hm
    | succ m ih =>
      intro u hm hn
      match u, hm, hn with
      | [], _, _ => exact ⟨0, ⟨[], rfl, by simp⟩, rfl⟩
      | c :: t, hm, hn =>
        by_cases hc : c = 13
        · subst hc
          match t, hm, hn with
          | [], _, _ => exact ⟨1, ⟨[], rfl, by simp⟩, rfl⟩
          | d :: t, hm, hn =>
            have hd : d ≠ 10 := by rintro rfl; exact noCrLf_head hn
            obtain ⟨n, h1, h2⟩ := ih t (by simp at hm; omega) (noCrLf_tail (noCrLf_tail hn))
            have hw : walk .ignore (13 :: d :: t) = walk .ignore t := by
              simp [walk, step, hd]
            rw [hw, h2]
            by_cases hd' : d = 13
            · subst hd'
              rcases trailing_cr h1 with ⟨e, h3⟩ | ⟨e, h3⟩
              · rcases trailing_cr h3 with ⟨_, h4⟩ | ⟨e', _⟩
                · exact ⟨n + 2, h4, by rw [Nat.add_mod_right]⟩
                · exact absurd (by rw [e, List.replicate_succ]) e'
              · rcases trailing_cr h3 with ⟨e', _⟩ | ⟨_, h4⟩
                · exfalso
                  have e2 := congrArg List.length e'
                  cases n with
                  | zero => simp at e'
                  | succ n =>
                    rw [List.replicate_succ] at e'
                    obtain ⟨v, rfl, hv⟩ := h1
                    simp at e2
                    omega
                · exact ⟨n, h4, rfl⟩
            · rcases trailing_cr (trailing_cons d hd' h1) with ⟨e, _⟩ | ⟨_, h4⟩
              · exfalso
                cases n with
                | zero => simp at e
                | succ n => rw [List.replicate_succ] at e; simp at e; exact hd' e.1
              · exact ⟨n, h4, rfl⟩
        · obtain ⟨n, h1, h2⟩ := ih t (by simp at hm; omega) (noCrLf_tail hn)
          exact ⟨n, trailing_cons c hc h1, by simpa [walk, step, hc] using h2⟩
  exact main _ u (Nat.le_refl _)

theorem walk_s (k : Nat) : walk .ss (List.replicate k 83) = some .ss := by
  induction k with
  | zero => rfl
  | succ k ih => rw [List.replicate_succ]; exact ih

theorem walk_ss (k : Nat) : walk .eolLf (List.replicate (k + 2) 83) = some .ss := walk_s k

theorem walk_head {p : Bytes} (h : Spec.Head p) : walk .eolLf p = some .ignore := by
  rcases h with ⟨c, h, rfl⟩ | ⟨c, h, rfl⟩ | ⟨k, c, h, h', rfl⟩ | ⟨k, c, h, rfl⟩
  · simp [walk, step, h]
  · simp [walk, step, h]
  · rw [walk_append (walk_ss k)]; simp [walk, step, h, h']
  · rw [walk_append (walk_ss k)]; simp [walk, step, h]

/-- every line is of one of these forms -/
theorem line_cases (l : Bytes) : (∃ k, l = List.replicate k 83) ∨
    (∃ k, l = List.replicate (k + 2) 83 ++ [72]) ∨
    (∃ k r, l = List.replicate k 83 ++ (b! "SSH-" ++ r)) ∨ ∃ p u, Spec.Head p ∧ l = p ++ u := by
  obtain ⟨k, m, rfl, hm⟩ : ∃ k m, l = List.replicate k 83 ++ m ∧ m.head? ≠ some 83 := by
    induction l with
    | nil => exact ⟨0, [], rfl, by simp⟩
    | cons c t ih =>
      by_cases hc : c = 83
      · obtain ⟨k, m, e, h⟩ := ih
        exact ⟨k + 1, m, by rw [e, hc, List.replicate_succ]; rfl, h⟩
      · exact ⟨0, c :: t, rfl, by simpa using hc⟩
  match m, hm with
  | [], _ => exact .inl ⟨k, by simp⟩
  | c :: m, hm =>
    have hc : c ≠ 83 := by simpa using hm
    match k with
    | 0 => exact .inr (.inr (.inr ⟨[c], m, .inl ⟨c, hc, rfl⟩, rfl⟩))
    | 1 => exact .inr (.inr (.inr ⟨[83, c], m, .inr (.inl ⟨c, hc, rfl⟩), rfl⟩))
    | k + 2 =>
      by_cases h72 : c = 72
      · subst h72
        match m with
        | [] => exact .inr (.inl ⟨k, rfl⟩)
        | d :: m =>
          by_cases hd : d = 45
          · subst hd
            refine .inr (.inr (.inl ⟨k, m, ?_⟩))
            rw [show k + 2 = k + 1 + 1 from rfl, List.replicate_succ', List.replicate_succ']
            simp
          · exact .inr (.inr (.inr ⟨_, m, .inr (.inr (.inr ⟨k, d, hd, rfl⟩)), by simp⟩))
      · exact .inr (.inr (.inr ⟨_, m, .inr (.inr (.inl ⟨k, c, hc, h72, rfl⟩)), by simp⟩))

theorem skip_break (k : Nat) (r : Bytes) :
    skip .eolLf (List.replicate k 83 ++ (b! "SSH-" ++ r)) = ok r := by
  have h0 : ∀ st : State, st = .eolLf ∨ st = .s ∨ st = .ss →
      skip st (List.replicate k 83 ++ (b! "SSH-" ++ r)) = ok r := by
    induction k with
    | zero => intro st hst; rcases hst with rfl | rfl | rfl <;> rfl
    | succ k ih =>
      intro st hst
      rw [List.replicate_succ, List.cons_append, skip]
      rcases hst with rfl | rfl | rfl <;> exact ih _ (by simp)
  exact h0 _ (.inl rfl)

end Ident

/-- an identification string -/
private def anIdent : Bytes := b! "SSH-2.0-" ++ [] ++ Spec.crlf ++ []

private theorem anIdent_ok : Ident.parseStream anIdent = ok (b! "SSH-2.0-", []) := by decide

/-- a line in a state in which its end is not seen -/
private theorem unseen {l : Bytes} {st : Ident.State} (h : Ident.walk .eolLf l = some st)
    (hst : st ≠ .ignore) : Ident.parseStream (l ++ Spec.crlf ++ anIdent) = err .io := by
  have h1 : Ident.skip .eolLf (l ++ (Spec.crlf ++ anIdent)) = err .io := by
    rw [Ident.skip_walk h]
    cases st <;> first | exact absurd rfl hst | decide
  rw [List.append_assoc, Ident.parseStream, h1]
  rfl

/-- a line that is taken for the identification string -/
private theorem taken (k : Nat) (r : Bytes) (hn : Spec.NoCrLf r) :
    Ident.parseStream (List.replicate k 83 ++ (b! "SSH-" ++ r) ++ Spec.crlf ++ anIdent) ≠
      ok (b! "SSH-2.0-", []) := by
  have e : List.replicate k 83 ++ (b! "SSH-" ++ r) ++ Spec.crlf ++ anIdent =
      List.replicate k 83 ++ (b! "SSH-" ++ (r ++ Spec.crlf ++ anIdent)) := by simp
  have h1 := Ident.after_skip (Ident.skip_break k (r ++ Spec.crlf ++ anIdent))
  have h2 := Ident.after_skip (Ident.skip_break 0 (r ++ Spec.crlf ++ anIdent))
  rw [e, h1, ← h2]
  show Ident.parseStream (b! "SSH-" ++ (r ++ Spec.crlf ++ anIdent)) ≠ _
  by_cases h : ∃ text, r = b! "2.0-" ++ text
  · obtain ⟨text, rfl⟩ := h
    have ht : Spec.NoCrLf text := fun a b e => hn (b! "2.0-" ++ a) b (by rw [e]; simp)
    have := C19_parse text anIdent ht
    rw [show b! "SSH-" ++ (b! "2.0-" ++ text ++ Spec.crlf ++ anIdent) =
      b! "SSH-2.0-" ++ text ++ Spec.crlf ++ anIdent by simp, this]
    split
    · intro h
      injection h with h
      injection h with _ h
      exact absurd h (by decide)
    · intro h; cases h
  · have hv : ∀ a b c d x, r ++ Spec.crlf ++ anIdent = [a, b, c, d] ++ x → [a, b, c, d] ≠ b! "2.0-" := by
      intro a b c d x e e'
      rw [e'] at e
      match r, e with
      | [], e => simp [Spec.crlf] at e
      | [_], e => simp [Spec.crlf] at e
      | [_, _], e => simp [Spec.crlf] at e
      | [_, _, _], e => simp [Spec.crlf] at e
      | a' :: b' :: c' :: d' :: t, e =>
        simp at e
        exact h ⟨t, by simp [e]⟩
    obtain ⟨a, b, c, d, x, e⟩ : ∃ a b c d x, r ++ Spec.crlf ++ anIdent = [a, b, c, d] ++ x := by
      have hl : 4 ≤ (r ++ Spec.crlf ++ anIdent).length := by
        have : anIdent.length = 10 := by decide
        simp [this]
        omega
      match r ++ Spec.crlf ++ anIdent, hl with
      | a :: b :: c :: d :: x, _ => exact ⟨a, b, c, d, x, rfl⟩
      | [], h => simp at h
      | [_], h => simp at h
      | [_, _], h => simp at h
      | [_, _, _], h => simp at h
    rw [e, ← List.append_assoc, C21_version a b c d x (hv a b c d x e)]
    intro h; cases h

/-- C20, exactly: a line before the identification string is skipped, whatever follows, iff it is one of
`Spec.Skipped`. Of the other lines, for which C20 is false, some hide an identification string after
them and some are taken for it. -/
theorem C20_exact (l : Bytes) (hn : Spec.NoCrLf l) :
    (∀ rest, Ident.parseStream (l ++ Spec.crlf ++ rest) = Ident.parseStream rest) ↔
      Spec.Skipped l := by
  constructor
  · intro h
    have h := h anIdent
    rw [anIdent_ok] at h
    rcases Ident.line_cases l with ⟨k, rfl⟩ | ⟨k, rfl⟩ | ⟨k, r, rfl⟩ | ⟨p, u, hp, rfl⟩
    · exfalso
      match k with
      | 0 => rw [unseen rfl (by decide)] at h; cases h
      | 1 => rw [unseen rfl (by decide)] at h; cases h
      | k + 2 => rw [unseen (Ident.walk_ss k) (by decide)] at h; cases h
    · rw [unseen (Ident.walk_append (Ident.walk_ss k) _) (by decide)] at h; cases h
    · exact absurd h (taken k r fun a b e => hn (List.replicate k 83 ++ b! "SSH-" ++ a) b
        (by rw [e]; simp))
    · obtain ⟨n, h1, h2⟩ := Ident.walk_ignore u fun a b e => hn (p ++ a) b (by rw [e]; simp)
      have h3 := Ident.walk_append (Ident.walk_head hp) u
      rw [h2] at h3
      by_cases hn2 : n % 2 = 0
      · exact ⟨p, u, n / 2, hp, rfl, by rwa [show 2 * (n / 2) = n by omega]⟩
      · rw [if_neg hn2] at h3
        rw [unseen h3 (by decide)] at h; cases h
  · rintro ⟨p, u, j, hp, rfl, hu⟩ rest
    obtain ⟨n, h1, h2⟩ := Ident.walk_ignore u fun a b e => hn (p ++ a) b (by rw [e]; simp)
    cases Ident.trailing_unique hu h1
    have h3 := Ident.walk_append (Ident.walk_head hp) u
    rw [h2, if_pos (by omega)] at h3
    have h4 : Ident.skip .eolLf (p ++ u ++ (Spec.crlf ++ rest)) = Ident.skip .eolLf rest := by
      rw [Ident.skip_walk h3]; rfl
    rw [List.append_assoc, Ident.parseStream, h4, Ident.parseStream]

/-- C20, as far as it holds, for any number of lines: all of these are skipped. Missing: the other lines,
for which it is false (`C20_exact`). -/
theorem C20_lines_partial (lines : List Bytes) (rest : Bytes)
    (h : ∀ l ∈ lines, Spec.NoCrLf l ∧ Spec.Skipped l) :
    Ident.parseStream ((lines.map (· ++ Spec.crlf)).flatten ++ rest) = Ident.parseStream rest := by
  induction lines with
  | nil => rfl
  | cons l t ih =>
    have h1 := h l (List.mem_cons_self ..)
    rw [List.map_cons, List.flatten_cons, List.append_assoc, (C20_exact l h1.1).mpr h1.2]
    exact ih fun l hl => h l (List.mem_cons_of_mem _ hl)

/-- a line with a CR inside and two at its end is skipped -/
example : Spec.Skipped (b! "SSx\ry\r\r") :=
  ⟨b! "SSx", b! "\ry\r\r", 1, .inr (.inr (.inl ⟨0, 120, by decide, by decide, rfl⟩)), rfl,
    b! "\ry", rfl, by decide⟩

example : Ident.parseStream (b! "SSx\ry\r\r\r\nSSH-2.0-x\r\n") = ok (b! "SSH-2.0-x", []) := by decide

/-- one with one CR at its end is not -/
example : ¬ Spec.Skipped (b! "x\r") := by
  intro h
  have := (C20_exact (b! "x\r") (by
    intro a b e
    match a, e with
    | [], e => simp [Spec.crlf] at e
    | [_], e => simp [Spec.crlf] at e
    | _ :: _ :: _, e => simp [Spec.crlf] at e)).mpr h (b! "SSH-2.0-x\r\n")
  exact absurd this (by decide)

/-! ### C21, exactly: which streams are accepted -/

/-- a part of an ignored line without its end: a CR is read together with the byte after it -/
inductive Spec.LineRest : Bytes → Prop
  | nil : Spec.LineRest []
  | byte {c u} : c ≠ 13 → Spec.LineRest u → Spec.LineRest (c :: u)
  | cr {d u} : d ≠ 10 → Spec.LineRest u → Spec.LineRest (13 :: d :: u)

/-- bytes that are ignored before the identification string, up to a CR LF -/
def Spec.Ignored (b : Bytes) : Prop :=
  ∃ p u, Spec.Head p ∧ Spec.LineRest u ∧ b = p ++ u ++ Spec.crlf

/-- the stream `inp` starts with the identification string `id`, before it there may be ignored bytes and
letters `S`; the bytes `rest` follow -/
def Spec.Greeting (inp id rest : Bytes) : Prop :=
  Spec.IsIdent id ∧ ∃ (blocks : List Bytes) (k : Nat), (∀ b ∈ blocks, Spec.Ignored b) ∧
    inp = blocks.flatten ++ List.replicate k 83 ++ id ++ Spec.crlf ++ rest

namespace Ident

theorem walk_rest {u : Bytes} (h : Spec.LineRest u) : walk .ignore u = some .ignore := by
  induction h with
  | nil => rfl
  | byte hc _ ih => simpa [walk, step, hc] using ih
  | cr hd _ ih => simpa [walk, step, hd] using ih

theorem walk_ignored {b : Bytes} (h : Spec.Ignored b) : walk .eolLf b = some .eolLf := by
  obtain ⟨p, u, hp, hu, rfl⟩ := h
  rw [List.append_assoc, walk_append (walk_head hp), walk_append (walk_rest hu)]
  rfl

theorem skip_rest {r : Bytes} : ∀ (n : Nat) (inp : Bytes), inp.length ≤ n → skip .ignore inp = ok r →
    ∃ u inp', Spec.LineRest u ∧ inp = u ++ Spec.crlf ++ inp' ∧ skip .eolLf inp' = ok r := by
  intro n
  induction n with
  | zero =>
    intro inp hn h
    cases inp with
    | nil => cases h
    | cons => simp at hn
  | succ n ih =>
    intro inp hn h
    match inp, hn, h with
    | [], _, h => cases h
    | c :: t, hn, h =>
      by_cases hc : c = 13
      · subst hc
        match t, hn, h with
        | [], _, h => cases h
        | d :: t, hn, h =>
          by_cases hd : d = 10
          · subst hd
            exact ⟨[], t, .nil, rfl, h⟩
          · have h' : skip .ignore t = ok r := by simpa [skip, step, hd] using h
            obtain ⟨u, inp', h1, h2, h3⟩ := ih t (by simp at hn; omega) h'
            exact ⟨13 :: d :: u, inp', .cr hd h1, by rw [h2]; rfl, h3⟩
      · have h' : skip .ignore t = ok r := by simpa [skip, step, hc] using h
        obtain ⟨u, inp', h1, h2, h3⟩ := ih t (by simp at hn; omega) h'
        exact ⟨c :: u, inp', .byte hc h1, by rw [h2]; rfl, h3⟩

theorem skip_blocks {r : Bytes} : ∀ (n : Nat) (inp : Bytes), inp.length ≤ n → skip .eolLf inp = ok r →
    ∃ (blocks : List Bytes) (k : Nat), (∀ b ∈ blocks, Spec.Ignored b) ∧
      inp = blocks.flatten ++ List.replicate k 83 ++ b! "SSH-" ++ r := by
  intro n
  induction n with
  | zero =>
    intro inp hn h
    cases inp with
    | nil => cases h
    | cons => simp at hn
  | succ n ih =>
    intro inp hn h
    rcases line_cases inp with ⟨k, e⟩ | ⟨k, e⟩ | ⟨k, r', e⟩ | ⟨p, u, hp, e⟩
    · exfalso
      match k, e with
      | 0, e => rw [e] at h; cases h
      | 1, e => rw [e] at h; cases h
      | k + 2, e =>
        have := skip_walk (walk_ss k) []
        rw [List.append_nil, ← e, h] at this
        cases this
    · exfalso
      have hw : walk .eolLf inp = some .ssh := by rw [e, walk_append (walk_ss k)]; rfl
      have := skip_walk hw []
      rw [List.append_nil, h] at this
      cases this
    · have := skip_break k r'
      rw [← e, h] at this
      cases this
      exact ⟨[], k, by simp, by rw [e]; simp⟩
    · have hs := skip_walk (walk_head hp) u
      rw [← e, h] at hs
      obtain ⟨v, inp', h1, h2, h3⟩ := skip_rest _ u (Nat.le_refl _) hs.symm
      have hpl : 0 < p.length := by
        rcases hp with ⟨c, _, rfl⟩ | ⟨c, _, rfl⟩ | ⟨k, c, _, _, rfl⟩ | ⟨k, c, _, rfl⟩ <;> simp
      obtain ⟨blocks, k, h4, h5⟩ := ih inp' (by
        have := congrArg List.length e
        rw [h2] at this
        simp at this
        omega) h3
      refine ⟨(p ++ v ++ Spec.crlf) :: blocks, k, ?_, ?_⟩
      · intro b hb
        rcases List.mem_cons.mp hb with rfl | hb
        · exact ⟨p, v, hp, h1, rfl⟩
        · exact h4 b hb
      · rw [e, h2, h5]
        simp

theorem skip_blocks_ok (blocks : List Bytes) (k : Nat) (r : Bytes) (h : ∀ b ∈ blocks, Spec.Ignored b) :
    skip .eolLf (blocks.flatten ++ (List.replicate k 83 ++ (b! "SSH-" ++ r))) = ok r := by
  induction blocks with
  | nil => exact skip_break k r
  | cons b t ih =>
    rw [List.flatten_cons, List.append_assoc, skip_walk (walk_ignored (h b (List.mem_cons_self ..)))]
    exact ih fun b hb => h b (List.mem_cons_of_mem _ hb)

end Ident

/-- C21, exactly: a stream is accepted, with the identification string `id` and the bytes `rest` after it,
iff `Spec.Greeting` holds. -/
theorem C21_exact (inp id rest : Bytes) :
    Ident.parseStream inp = ok (id, rest) ↔ Spec.Greeting inp id rest := by
  constructor
  · intro h
    obtain ⟨r, hr⟩ : ∃ r, Ident.skip .eolLf inp = ok r := by
      rcases Ident.skip_cases inp .eolLf with e | ⟨r, e⟩
      · rw [Ident.parseStream, e] at h; cases h
      · exact ⟨r, e⟩
    obtain ⟨blocks, k, h1, h2⟩ := Ident.skip_blocks _ inp (Nat.le_refl _) hr
    have h3 : Ident.parseStream (b! "SSH-" ++ r) = ok (id, rest) := by
      rw [← h, Ident.after_skip hr]
      exact Ident.after_skip (Ident.skip_break 0 r)
    obtain ⟨h4, -⟩ := C21_sound _ _ _ h3
    refine ⟨h4, blocks, k, h1, ?_⟩
    have h5 : b! "SSH-" ++ r = id ++ Spec.crlf ++ rest := by
      have h6 := h3
      rw [Ident.after_skip (show Ident.skip .eolLf (b! "SSH-" ++ r) = ok r from Ident.skip_break 0 r)] at h6
      simp only [bind_eq_ok, okOr_eq_ok] at h6
      obtain ⟨⟨b, r'⟩, hb, h6⟩ := h6
      obtain ⟨_, rfl⟩ := split_eq_ok.mp hb
      simp only at h6
      split_ifs at h6 with h20
      subst h20
      rcases crlf_split r' with hn | ⟨t, r2, rfl, hn⟩
      · rcases Ident.collect_start_none hn with e | e <;> (rw [e] at h6; cases h6)
      · have hp := C19_parse t r2 (noCrLf_left hn)
        rw [show b! "SSH-2.0-" ++ t ++ Spec.crlf ++ r2 = b! "SSH-" ++ (b! "2.0-" ++ (t ++ 13 :: 10 :: r2)) by
          simp [Spec.crlf], h3] at hp
        split_ifs at hp with hl
        cases hp
        simp [Spec.crlf]
    rw [h2, List.append_assoc, h5]
    simp
  · rintro ⟨⟨⟨text, rfl⟩, hl, hn⟩, blocks, k, h1, rfl⟩
    have hn' : Spec.NoCrLf text := fun a b e => hn (b! "SSH-2.0-" ++ a) b (by rw [e]; simp)
    have h3 := C19_parse text rest hn'
    rw [if_pos (by simp at hl; omega)] at h3
    rw [← h3]
    have h4 := Ident.skip_blocks_ok blocks k (b! "2.0-" ++ text ++ Spec.crlf ++ rest) h1
    have h5 := Ident.skip_break 0 (b! "2.0-" ++ text ++ Spec.crlf ++ rest)
    rw [show blocks.flatten ++ List.replicate k 83 ++ (b! "SSH-2.0-" ++ text) ++ Spec.crlf ++ rest =
      blocks.flatten ++ (List.replicate k 83 ++ (b! "SSH-" ++ (b! "2.0-" ++ text ++ Spec.crlf ++ rest))) by simp,
      show b! "SSH-2.0-" ++ text ++ Spec.crlf ++ rest =
      List.replicate 0 83 ++ (b! "SSH-" ++ (b! "2.0-" ++ text ++ Spec.crlf ++ rest)) by simp,
      Ident.after_skip h4, Ident.after_skip h5]

/-- an empty line and a second line are ignored together -/
example : Spec.Greeting (b! "\r\nhello\r\nSSH-2.0-x\r\n\x00") (b! "SSH-2.0-x") [0] :=
  (C21_exact _ _ _).mp (by decide)

end Nora
