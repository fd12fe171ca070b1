import Verif.Lemmas.Ident
/-
Properties of the identification exchange: C19-C21. The specification is in Verif/Spec/Ident.lean.
-/
namespace Nora
open R

/-! ### C19 round trip -/

/-- what `send` writes on a connection that does not fail -/
theorem C19_sent (id : Bytes) (s : IoSt) (h : s.wcap = none) :
    Ident.send id s = (ok (), { s with out := s.out ++ (id ++ Spec.crlf) }) := by
  simp only [Ident.send, M.bind_run, M.writeAll, h, List.append_assoc]
  rfl

theorem C19_parse (text rest : Bytes) (hn : Spec.NoCrLf text) :
    Ident.parseStream (b! "SSH-2.0-" ++ text ++ Spec.crlf ++ rest) =
      if 8 + text.length ≤ 253 then ok (b! "SSH-2.0-" ++ text, rest)
      else err .identifierTooLong := by
  have e : b! "SSH-2.0-" ++ text ++ Spec.crlf ++ rest =
      b! "SSH-" ++ (b! "2.0-" ++ (text ++ 13 :: 10 :: rest)) := by simp [Spec.crlf]
  have h1 : Ident.skip .eolLf (b! "SSH-" ++ (b! "2.0-" ++ (text ++ 13 :: 10 :: rest))) =
      ok (b! "2.0-" ++ (text ++ 13 :: 10 :: rest)) := rfl
  have h2 : split (b! "2.0-" ++ (text ++ 13 :: 10 :: rest)) 4 =
      ok (b! "2.0-", text ++ 13 :: 10 :: rest) := split_eq_ok.mpr ⟨rfl, rfl⟩
  rw [e, Ident.after_skip h1, h2]
  simp only [R.okOr, R.mapErr, ok_bind, if_true, Ident.collect_start rest hn]
  by_cases hl : 8 + text.length ≤ 253
  · rw [if_pos hl, ok_bind]
    have : Ident.new (b! "SSH-2.0-" ++ text) = ok (b! "SSH-2.0-" ++ text) :=
      if_pos (by simp [Ident.maxLen]; omega)
    simp only [this, ok_bind]
  · rw [if_neg hl, err_bind]

/-- C19: a string sent by one side is parsed by the other side to the same string; exactly its bytes
are consumed. -/
theorem C19_round_trip (text rest : Bytes) (s s' : IoSt) (hw : s.wcap = none) (hout : s.out = [])
    (hn : Spec.NoCrLf text) (hl : (b! "SSH-2.0-" ++ text).length ≤ 253)
    (hs : s'.inp = (Ident.send (b! "SSH-2.0-" ++ text) s).2.out ++ rest) :
    Ident.new (b! "SSH-2.0-" ++ text) = ok (b! "SSH-2.0-" ++ text) ∧
    Ident.parse s' = (ok (b! "SSH-2.0-" ++ text), { s' with inp := rest }) := by
  refine ⟨if_pos hl, ?_⟩
  have hp := C19_parse text rest hn
  rw [if_pos (by simp at hl; omega)] at hp
  rw [C19_sent _ _ hw, hout] at hs
  simp only [List.nil_append, ← List.append_assoc] at hs
  rw [Ident.parse, hs]
  simp only [List.append_assoc] at hp ⊢
  rw [hp]

/-- a text with a bare CR at the end and a bare LF inside -/
example : Ident.parseStream (b! "SSH-2.0-no\nra\r\r\nrest") =
    ok (b! "SSH-2.0-no\nra\r", b! "rest") := by decide

example : Spec.NoCrLf (b! "no\nra\r") := by
  intro a b h
  have h2 := congrArg List.length h
  simp [Spec.crlf] at h2
  match a, h with
  | [], h => simp [Spec.crlf] at h
  | [_], h => simp [Spec.crlf] at h
  | [_, _], h => simp [Spec.crlf] at h
  | [_, _, _], h => simp [Spec.crlf] at h
  | [_, _, _, _], h => simp [Spec.crlf] at h
  | _ :: _ :: _ :: _ :: _ :: _, h => simp at h2; omega

/-! ### C20 lines before the identification string -/

/-- C20 in full -/
def C20_statement : Prop :=
  ∀ line rest : Bytes, Spec.NoCrLf line → (∀ t, line ≠ b! "SSH-" ++ t) →
    Ident.parseStream (line ++ Spec.crlf ++ rest) = Ident.parseStream rest

/-- C20 is false: an empty line hides the identification string after it -/
theorem C20_refuted : ¬ C20_statement := by
  intro h
  have := h [] (b! "SSH-2.0-x\r\n")
    (fun a b e => by have := congrArg List.length e; simp [Spec.crlf] at this)
    (fun t e => by simp at e)
  exact absurd this (by decide)

/-- C20 is false for these lines: `S…S`, also empty -/
theorem C20_refuted_s (k : Nat) (text : Bytes) (h : (13 : Byte) ∉ text) :
    Ident.parseStream (List.replicate k 83 ++ Spec.crlf ++ (b! "SSH-2.0-" ++ text ++ Spec.crlf)) =
      err .io := by
  have h0 : ∀ st : Ident.State, st = .eolLf ∨ st = .s ∨ st = .ss →
      ∀ r, Ident.skip st (List.replicate k 83 ++ 13 :: r) = Ident.skip .ignore r := by
    induction k with
    | zero => intro st hst r; rcases hst with rfl | rfl | rfl <;> rfl
    | succ k ih =>
      intro st hst r
      rw [List.replicate_succ, List.cons_append, Ident.skip]
      rcases hst with rfl | rfl | rfl <;> exact ih _ (by simp) r
  have h1 := h0 .eolLf (.inl rfl) (10 :: (b! "SSH-2.0-" ++ text ++ Spec.crlf))
  have h2 : Ident.skip .ignore (10 :: (b! "SSH-2.0-" ++ text ++ Spec.crlf)) = err .io := by
    have := Ident.skip_ignore (10 :: (b! "SSH-2.0-" ++ text)) [] (by simp [h])
    simp only [Spec.crlf]
    exact this
  have e : List.replicate k 83 ++ Spec.crlf ++ (b! "SSH-2.0-" ++ text ++ Spec.crlf) =
      List.replicate k 83 ++ 13 :: (10 :: (b! "SSH-2.0-" ++ text ++ Spec.crlf)) := by
    simp [Spec.crlf]
  rw [e, Ident.parseStream, h1, h2]; rfl

/-- C20 is false for lines that end in a CR before the CR LF -/
example : Ident.parseStream (b! "foo\r\r\nSSH-2.0-x\r\n") = err .io := by decide
example : Ident.parseStream (b! "SSH\r\nSSH-2.0-x\r\n") = err .io := by decide

/-- C20 is false for lines `SS…SH-2.0-…`, which do not start with `SSH-` but are taken for the
identification string -/
theorem C20_refuted_sssh (k : Nat) (text rest : Bytes) (hn : Spec.NoCrLf text)
    (hl : 8 + text.length ≤ 253) :
    Ident.parseStream (List.replicate k 83 ++ (b! "SSH-2.0-" ++ text ++ Spec.crlf ++ rest)) =
      ok (b! "SSH-2.0-" ++ text, rest) := by
  have h0 : ∀ st : Ident.State, st = .eolLf ∨ st = .s ∨ st = .ss →
      ∀ r, Ident.skip st (List.replicate k 83 ++ (b! "SSH-" ++ r)) = ok r := by
    induction k with
    | zero => intro st hst r; rcases hst with rfl | rfl | rfl <;> rfl
    | succ k ih =>
      intro st hst r
      rw [List.replicate_succ, List.cons_append, Ident.skip]
      rcases hst with rfl | rfl | rfl <;> exact ih _ (by simp) r
  have hp := C19_parse text rest hn
  rw [if_pos hl] at hp
  have e : b! "SSH-2.0-" ++ text ++ Spec.crlf ++ rest =
      b! "SSH-" ++ (b! "2.0-" ++ (text ++ (13 :: 10 :: rest))) := by simp [Spec.crlf]
  have h1 := h0 .eolLf (.inl rfl) (b! "2.0-" ++ (text ++ (13 :: 10 :: rest)))
  have h2 : Ident.skip .eolLf (b! "SSH-" ++ (b! "2.0-" ++ (text ++ (13 :: 10 :: rest)))) =
    ok (b! "2.0-" ++ (text ++ (13 :: 10 :: rest))) := rfl
  rw [e] at hp ⊢
  rw [Ident.after_skip h1, ← hp, Ident.after_skip h2]

/-- the lines that are skipped correctly: no CR in them, and neither `S…S`, `SS…SH` nor
`SS…SH-…` -/
def Spec.PlainLine (l : Bytes) : Prop :=
  (13 : Byte) ∉ l ∧ (∀ k, l ≠ List.replicate k 83) ∧
  (∀ k, l ≠ List.replicate k 83 ++ b! "SSH") ∧
  (∀ k r, l ≠ List.replicate k 83 ++ b! "SSH-" ++ r)

private theorem skip_ss (l rest : Bytes) (h13 : (13 : Byte) ∉ l)
    (h1 : ∀ k, l ≠ List.replicate k 83) (h2 : ∀ k, l ≠ List.replicate k 83 ++ [72])
    (h3 : ∀ k r, l ≠ List.replicate k 83 ++ [72, 45] ++ r) :
    Ident.skip .ss (l ++ 13 :: 10 :: rest) = Ident.skip .eolLf rest := by
  induction l with
  | nil => exact absurd rfl (h1 0)
  | cons c t ih =>
    simp only [List.mem_cons, not_or] at h13
    rw [List.cons_append, Ident.skip]
    by_cases hc : c = 83
    · simp only [Ident.step, if_pos hc]
      subst hc
      refine ih h13.2 (fun k e => h1 (k + 1) ?_) (fun k e => h2 (k + 1) ?_)
        (fun k r e => h3 (k + 1) r ?_)
      all_goals simp [e, List.replicate_succ]
    · by_cases hc' : c = 72
      · simp only [Ident.step, if_neg hc, if_pos hc']
        subst hc'
        cases t with
        | nil => exact absurd rfl (h2 0)
        | cons d t =>
          have hd : d ≠ 45 := by rintro rfl; exact h3 0 t rfl
          rw [List.cons_append, Ident.skip]
          simp only [Ident.step, if_neg hd]
          exact Ident.skip_ignore t rest (fun hh => h13.2 (List.mem_cons_of_mem _ hh))
      · simp only [Ident.step, if_neg hc, if_neg hc']
        exact Ident.skip_ignore t rest h13.2

/-- C20, as far as it holds: any number of plain lines before the identification string are skipped -/
theorem C20_skipped_partial (lines : List Bytes) (rest : Bytes)
    (h : ∀ l ∈ lines, Spec.PlainLine l) :
    Ident.parseStream ((lines.map (· ++ Spec.crlf)).flatten ++ rest) = Ident.parseStream rest := by
  have one : ∀ (l r : Bytes), Spec.PlainLine l →
      Ident.skip .eolLf (l ++ 13 :: 10 :: r) = Ident.skip .eolLf r := by
    intro l r ⟨h13, h1, h2, h3⟩
    match l, h13, h1, h2, h3 with
    | [], _, h1, _, _ => exact absurd rfl (h1 0)
    | [c], h13, h1, _, _ =>
      have hc : c ≠ 83 := by rintro rfl; exact h1 1 rfl
      rw [List.cons_append, Ident.skip]
      simp only [Ident.step, if_neg hc]
      exact Ident.skip_ignore [] r (by simp)
    | c :: d :: t, h13, h1, h2, h3 =>
      simp only [List.mem_cons, not_or] at h13
      rw [List.cons_append, Ident.skip]
      by_cases hc : c = 83
      · subst hc
        simp only [Ident.step, if_true]
        rw [List.cons_append, Ident.skip]
        by_cases hd : d = 83
        · subst hd
          simp only [Ident.step, if_true]
          refine skip_ss t r h13.2.2 (fun k e => h1 (k + 2) ?_) (fun k e => h2 k ?_)
            (fun k r e => h3 k r ?_)
          · rw [e, List.replicate_succ, List.replicate_succ]
          · rw [e]
            have := List.replicate_append_replicate (n := 2) (m := k) (a := (83 : Byte))
            have h' := List.replicate_append_replicate (n := k) (m := 2) (a := (83 : Byte))
            rw [Nat.add_comm, ← h'] at this
            have := congrArg (· ++ [(72 : Byte)]) this
            simpa using this
          · rw [e]
            have := List.replicate_append_replicate (n := 2) (m := k) (a := (83 : Byte))
            have h' := List.replicate_append_replicate (n := k) (m := 2) (a := (83 : Byte))
            rw [Nat.add_comm, ← h'] at this
            have := congrArg (· ++ (72 : Byte) :: 45 :: r) this
            simpa using this
        · simp only [Ident.step, if_neg hd]
          exact Ident.skip_ignore t r h13.2.2
      · simp only [Ident.step, if_neg hc]
        exact Ident.skip_ignore (d :: t) r (by simp [h13.2])
  induction lines with
  | nil => rfl
  | cons l ls ih =>
    rw [← ih (fun x hx => h x (List.mem_cons_of_mem _ hx))]
    have := one l ((ls.map (· ++ Spec.crlf)).flatten ++ rest) (h l (List.mem_cons_self ..))
    have e : ((l :: ls).map (· ++ Spec.crlf)).flatten ++ rest =
        l ++ 13 :: 10 :: ((ls.map (· ++ Spec.crlf)).flatten ++ rest) := by simp [Spec.crlf]
    rw [e, Ident.parseStream, this]; rfl

/-- plain: any line starting with another byte than `S`, if it has no CR -/
theorem C20_plain_example (c : Byte) (t : Bytes) (h : c ≠ 83) (h' : (13 : Byte) ∉ c :: t) :
    Spec.PlainLine (c :: t) := by
  refine ⟨h', ?_, ?_, ?_⟩
  · intro k e
    cases k with
    | zero => simp at e
    | succ k => rw [List.replicate_succ, List.cons.injEq] at e; exact h e.1
  · intro k e
    cases k with
    | zero => simp at e; exact h e.1
    | succ k => rw [List.replicate_succ, List.cons_append, List.cons.injEq] at e; exact h e.1
  · intro k r e
    cases k with
    | zero => simp at e; exact h e.1
    | succ k =>
      rw [List.replicate_succ, List.cons_append, List.cons_append, List.cons.injEq] at e
      exact h e.1

example : Ident.parseStream (b! "hello\r\nSHello\r\nSSH-2.0-x\r\n") = ok (b! "SSH-2.0-x", []) := by
  decide

/-! ### C21 only valid strings are accepted -/

/-- C21: whatever is accepted is an identification string; it was on the stream at the start of a
line (possibly after further `S`), followed by CR LF, and that is where reading stopped. -/
theorem C21_sound (inp id rest : Bytes) (h : Ident.parseStream inp = ok (id, rest)) :
    Spec.IsIdent id ∧ ∃ q k, Spec.LineStart q ∧
      inp = q ++ List.replicate k 83 ++ id ++ Spec.crlf ++ rest := by
  rcases Ident.skip_cases inp .eolLf with e | ⟨r, e⟩
  · rw [Ident.parseStream, e] at h; cases h
  · obtain ⟨q, k, hq, hi⟩ := Ident.skip_start e
    rw [Ident.after_skip e] at h
    simp only [bind_eq_ok, okOr_eq_ok] at h
    obtain ⟨⟨b, r'⟩, hb, h⟩ := h
    obtain ⟨_, rfl⟩ := split_eq_ok.mp hb
    simp only at h
    split_ifs at h with h20
    subst h20
    rcases crlf_split r' with hn | ⟨t, r2, rfl, hn⟩
    · rcases Ident.collect_start_none hn with e | e <;> (rw [e] at h; cases h)
    · have hn' := noCrLf_left hn
      rw [Ident.collect_start _ hn'] at h
      split_ifs at h with hl
      · simp only [ok_bind, bind_eq_ok, okOr_eq_ok] at h
        obtain ⟨i, hnew, h⟩ := h
        rw [R.ok.injEq, Prod.mk.injEq] at h
        obtain ⟨rfl, rfl⟩ := h
        have : i = b! "SSH-2.0-" ++ t := by
          unfold Ident.new at hnew
          split_ifs at hnew
          injection hnew with hnew
          exact hnew.symm
        subst this
        refine ⟨⟨⟨t, rfl⟩, by simp; omega, ?_⟩, q, k, hq, by rw [hi]; simp [Spec.crlf]⟩
        intro a b e
        rcases List.append_eq_append_iff.mp (show b! "SSH-2.0-" ++ t = a ++ (Spec.crlf ++ b) by
          rw [e, List.append_assoc]) with ⟨a', rfl, h2⟩ | ⟨c', h1, h2⟩
        · exact hn' a' b (by rw [h2, List.append_assoc])
        · have hm : ∀ x ∈ b! "SSH-2.0-", x ≠ 13 := by decide
          cases c' with
          | nil => exact hn' [] b (by simpa using h2.symm)
          | cons x c' =>
            have hx : x = 13 := by
              simp only [Spec.crlf, List.cons_append, List.cons.injEq] at h2; exact h2.1.symm
            exact hm x (by rw [h1]; simp) hx
      · cases h

/-- C21: on the connection only the input is touched, and exactly the bytes up to the CR LF are gone -/
theorem C21_consumed (s s' : IoSt) (id : Bytes) (h : Ident.parse s = (ok id, s')) :
    Spec.IsIdent id ∧ s' = { s with inp := s'.inp } ∧ ∃ q k, Spec.LineStart q ∧
      s.inp = q ++ List.replicate k 83 ++ id ++ Spec.crlf ++ s'.inp := by
  unfold Ident.parse at h
  cases e : Ident.parseStream s.inp with
  | ok x =>
    obtain ⟨i, r⟩ := x
    rw [e] at h
    simp only [Prod.mk.injEq, R.ok.injEq] at h
    obtain ⟨rfl, rfl⟩ := h
    obtain ⟨h1, h2⟩ := C21_sound _ _ _ e
    exact ⟨h1, rfl, h2⟩
  | err e' => rw [e] at h; simp at h
  | panic => rw [e] at h; simp at h

/-- C21: parsing never panics -/
theorem C21_no_panic (inp : Bytes) : Ident.parseStream inp ≠ R.panic := by
  rcases Ident.skip_cases inp .eolLf with e | ⟨r, e⟩
  · rw [Ident.parseStream, e]; simp
  · rw [Ident.after_skip e]
    refine bind_ne_panic (okOr_ne_panic split_ne_panic) ?_
    rintro ⟨b, r'⟩ _
    simp only
    split_ifs
    · refine bind_ne_panic ?_ ?_
      · rcases crlf_split r' with hn | ⟨t, r2, rfl, hn⟩
        · rcases Ident.collect_start_none hn with e | e <;> rw [e] <;> simp
        · rw [Ident.collect_start _ (noCrLf_left hn)]
          split_ifs <;> simp
      · rintro ⟨a, r2⟩ _
        refine bind_ne_panic (okOr_ne_panic ?_) (by simp)
        unfold Ident.new; split_ifs <;> simp
    · simp

/-- C21: an over-long identification string is rejected -/
theorem C21_too_long (text rest : Bytes) (hn : Spec.NoCrLf text) (h : 253 < 8 + text.length) :
    Ident.parseStream (b! "SSH-2.0-" ++ text ++ Spec.crlf ++ rest) = err .identifierTooLong := by
  rw [C19_parse text rest hn, if_neg (by omega)]

/-- C21: another protocol version is rejected -/
theorem C21_version (a b c d : Byte) (rest : Bytes) (h : [a, b, c, d] ≠ b! "2.0-") :
    Ident.parseStream (b! "SSH-" ++ [a, b, c, d] ++ rest) = err .incompatibleProtocol := by
  have h1 : Ident.skip .eolLf (b! "SSH-" ++ [a, b, c, d] ++ rest) = ok ([a, b, c, d] ++ rest) := rfl
  have h2 : split ([a, b, c, d] ++ rest) 4 = ok ([a, b, c, d], rest) := split_eq_ok.mpr ⟨rfl, rfl⟩
  rw [Ident.after_skip h1, h2]
  simp only [R.okOr, R.mapErr, ok_bind]
  rw [if_neg h]

/-- C21: in particular protocol 1.99 (compatibility with 1.x servers) is rejected -/
example : Ident.parseStream (b! "SSH-1.99-OpenSSH_3\r\n") = err .incompatibleProtocol := by decide

end Nora
