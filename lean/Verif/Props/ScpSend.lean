import Verif.Props.ScpFiles
/-
C56: what `scp -f` sends. C63: the arguments of `scp`.
-/
namespace Nora
open R Scp Spec

/-! ### C56 -/

/-- the files at the paths: their names (without directories) and contents -/
def Spec.Sources (os : Os) : List Bytes → List (Bytes × Bytes) → Prop
  | [], [] => True
  | p :: ps, f :: fs => fileName p = .ok f.1 ∧ (os.content p).1 = f.2 ∧ Sources os ps fs
  | _, _ => False

theorem output_append (a b : List Ev) : output (a ++ b) = output a ++ output b := by
  induction a with
  | nil => rfl
  | cons e t ih => cases e <;> simp [output, ih]

theorem Scp.S.bind_eq_ok {α β : Type} {x : S α} {f : α → S β} {s s' : St} {b : β}
    (h : (x >>= f) s = (.ok b, s')) : ∃ a s1, x s = (.ok a, s1) ∧ f a s1 = (.ok b, s') := by
  rcases hx : x s with ⟨r, s1⟩
  rcases r with a | e | _
  · exact ⟨a, s1, rfl, (S.bind_ok hx).symm.trans h⟩
  · rw [S.bind_err hx] at h; cases h
  · rw [S.bind_panic hx] at h; cases h

theorem Scp.op_eq_ok {os : Os} {e : Ev} {s s' : St} {u : Unit} (h : S.op os e s = (.ok u, s')) :
    s' = { s with log := s.log ++ [e] } := by
  rcases op_cases os e s with h1 | h1 <;> rw [h1] at h <;> cases h
  rfl

/-- a file is sent as a header with mode `0644` and size 42, and the content -/
theorem Scp.sendFile_ok {os : Os} {p : Bytes} {s s' : St} (h : sendFile os p s = (.ok (), s')) :
    ∃ name, fileName p = .ok name ∧ Utf8 name ∧
      s'.log = s.log ++ [.openFile p, .out (scpHeader (b! "0644") (b! "42") name),
        .out (os.content p).1] := by
  unfold sendFile at h
  obtain ⟨_, s1, h1, k1⟩ := S.bind_eq_ok h
  obtain ⟨name', s2, h2, k2⟩ := S.bind_eq_ok k1
  obtain ⟨name, s3, h3, k3⟩ := S.bind_eq_ok k2
  obtain ⟨_, s4, h4, k4⟩ := S.bind_eq_ok k3
  obtain ⟨_, s5, h5, k5⟩ := S.bind_eq_ok k4
  clear h k1 k2 k3 k4
  have h1 := op_eq_ok h1
  have h5 := op_eq_ok h5
  simp only [S.lift, Prod.mk.injEq] at h2 h3
  obtain ⟨h2, rfl⟩ := h2
  obtain ⟨h3, rfl⟩ := h3
  rw [okOr_eq_ok, fromUtf8_eq_ok] at h3
  obtain ⟨h3, he⟩ := h3
  subst he
  have h2 : fileName p = .ok name := by
    rcases hf : fileName p with x | e | _ <;> rw [hf] at h2 <;> cases h2
    rfl
  have h4 : s4 = { s1 with log := s1.log ++ [.out (b! "C0644 42 " ++ name ++ [10])] } := by
    rcases op_cases os (.out (b! "C0644 42 " ++ name ++ [10])) s1 with h6 | h6
    · rw [h6] at h4; cases h4; rfl
    · rw [h6] at h4; cases h4
  have h6 : s' = s5 := by
    split at k5
    · cases k5; rfl
    · cases k5
  refine ⟨name, h2, h3, ?_⟩
  subst h6 h5 h4 h1
  simp [scpHeader]

/-- everything that is sent for files -/
def Spec.sends (files : List (Bytes × Bytes)) : Bytes :=
  (files.map (fun f => scpHeader (b! "0644") (b! "42") f.1 ++ f.2)).flatten

theorem Scp.send_ok {os : Os} {paths : List Bytes} {s s' : St} (h : send os paths s = (.ok (), s')) :
    ∃ files, Sources os paths files ∧ (∀ f ∈ files, Utf8 f.1) ∧
      ∃ evs, s'.log = s.log ++ evs ∧ output evs = sends files := by
  induction paths generalizing s with
  | nil => cases h; exact ⟨[], trivial, by simp, [], by simp, rfl⟩
  | cons p ps ih =>
    rw [send] at h
    obtain ⟨_, s1, h1, h⟩ := S.bind_eq_ok h
    obtain ⟨name, a1, a2, a3⟩ := sendFile_ok h1
    obtain ⟨files, b1, b2, evs, b3, b4⟩ := ih h
    refine ⟨(name, (os.content p).1) :: files, ⟨a1, rfl, b1⟩, ?_, _, by rw [b3, a3, List.append_assoc], ?_⟩
    · intro f hf
      rcases List.mem_cons.mp hf with rfl | hf
      · exact a2
      · exact b2 f hf
    · rw [output_append, b4]
      simp [output, sends]

theorem Spec.Sources.unique {os : Os} {paths : List Bytes} {f g : List (Bytes × Bytes)}
    (hf : Sources os paths f) (hg : Sources os paths g) : f = g := by
  induction paths generalizing f g with
  | nil => cases f <;> cases g <;> first | rfl | exact hf.elim | exact hg.elim
  | cons p ps ih =>
    rcases f with _ | ⟨⟨n, c⟩, f⟩
    · exact hf.elim
    rcases g with _ | ⟨⟨m, d⟩, g⟩
    · exact hg.elim
    obtain ⟨f1, f2, f3⟩ := hf
    obtain ⟨g1, g2, g3⟩ := hg
    rw [f1] at g1
    cases g1
    simp only at f2 g2
    rw [ih f3 g3, ← f2, ← g2]

/-- C56 as stated: what is sent for files recreates them. -/
def C56_statement : Prop :=
  ∀ os os' dir paths files s, Works os' → send os paths ⟨[], []⟩ = (.ok (), s) →
    Sources os paths files →
    ∃ s', receive os' [dir] true ⟨output s.log, []⟩ = (.ok (), s') ∧ (scan s'.log).files = files

/-- C56 is false for all files: what is sent never recreates them, as there is no byte 0 after the content.
(The size is always given as 42, too.) -/
theorem C56_never (os os' : Os) (dir : Bytes) (paths : List Bytes) (files : List (Bytes × Bytes))
    (s s' : St) (hne : paths ≠ []) (hs : send os paths ⟨[], []⟩ = (.ok (), s))
    (hf : Sources os paths files)
    (hr : receive os' [dir] true ⟨output s.log, []⟩ = (.ok (), s')) :
    (scan s'.log).files ≠ files := by
  intro heq
  obtain ⟨files', f1, -, evs, f2, f3⟩ := send_ok hs
  cases hf.unique f1
  obtain ⟨gs, g1, g2, g3, -⟩ := C54_dir os' dir _ s' hr
  rcases files with _ | ⟨⟨n, c⟩, files⟩
  · cases paths with
    | nil => exact hne rfl
    | cons p ps => exact hf.elim
  rcases gs with _ | ⟨⟨g, m⟩, gs⟩
  · rw [heq] at g3; cases g3
  rw [heq] at g3
  simp only [List.map_cons, List.cons.injEq, Prod.mk.injEq] at g3
  obtain ⟨⟨rfl, g3⟩, -⟩ := g3
  obtain ⟨mode, c1, c2, c3⟩ := g1 (g, n) (by simp)
  have hplain : Plain n := accepted_plain (rest := []) ⟨c3, .inl c2⟩ c1
  simp only [List.nil_append] at f2
  rw [f2, f3, List.map_cons, wires_cons] at g2
  have l1 : S.line (sends ((n, c) :: files)) = scpHeader (b! "0644") (b! "42") n := by
    have : sends ((n, c) :: files) = scpHeader (b! "0644") (b! "42") n ++ (c ++ sends files) := by
      simp [sends]
    rw [this]
    apply line_unique
    refine ⟨?_, .inl (by unfold scpHeader; exact List.getLast?_concat)⟩
    unfold scpHeader
    rw [List.dropLast_concat]
    simp [hplain.2]
  have l2 : S.line (sends ((n, c) :: files)) = g.hdr := by
    rw [g2]
    have : g.wire ++ wires (gs.map (·.1)) = g.hdr ++ (g.content ++ [0] ++ wires (gs.map (·.1))) := by
      simp [Sent.wire]
    rw [this]
    exact line_unique ⟨c3, .inl c2⟩
  rw [l1] at l2
  simp only [sends, List.map_cons, List.flatten_cons, Sent.wire, ← l2, g3, List.append_assoc] at g2
  have g2 := List.append_cancel_left (List.append_cancel_left g2)
  rcases files with _ | ⟨f, files⟩
  · cases g2
  · simp [scpHeader] at g2

theorem C56_refuted : ¬ C56_statement := by
  intro h
  obtain ⟨s, hs⟩ : ∃ s, send scpOs [b! "a"] ⟨[], []⟩ = (.ok (), s) := ⟨_, rfl⟩
  have hf : Sources scpOs [b! "a"] [(b! "a", [])] := ⟨by decide +kernel, rfl, trivial⟩
  obtain ⟨s', h1, h2⟩ := h scpOs scpOs [] _ _ s scpOs_works hs hf
  exact C56_never _ _ _ _ _ _ _ (by simp) hs hf h1 h2

/-- C56, the part that holds: for each file, the name and the whole content are sent. If names have no
spaces or newlines and all files have 42 bytes, then with a byte 0 after each file the receiver would
recreate the files.

Missing: the statement itself, which is false for all files (`C56_never`). -/
theorem C56_partial (os : Os) (paths : List Bytes) (s : St)
    (hs : send os paths ⟨[], []⟩ = (.ok (), s)) :
    ∃ files, Sources os paths files ∧
      output s.log =
        (files.map (fun f => scpHeader (b! "0644") (b! "42") f.1 ++ f.2)).flatten ∧
      ((∀ f ∈ files, Plain f.1 ∧ f.2.length = 42) → ∀ os' dir, Works os' →
        ∃ s', receive os' [dir] true ⟨(files.map (fun f =>
            scpHeader (b! "0644") (b! "42") f.1 ++ f.2 ++ [0])).flatten, []⟩ = (.ok (), s') ∧
          (scan s'.log).files = files) := by
  obtain ⟨files, f1, f2, evs, f3, f4⟩ := send_ok hs
  simp only [List.nil_append] at f3
  refine ⟨files, f1, by rw [f3, f4]; rfl, ?_⟩
  intro hall os' dir hos
  have := C54_complete os' hos dir
    (files.map (fun f => ((⟨scpHeader (b! "0644") (b! "42") f.1, f.2⟩ : Sent), f.1))) (by
      intro g hg
      obtain ⟨f, hf, rfl⟩ := List.mem_map.mp hg
      obtain ⟨p1, p2⟩ := hall f hf
      refine announces_header ⟨by decide +kernel, by decide +kernel⟩ p1 ?_ (by rw [p2]; decide)
        (Ascii.utf8 (by decide +kernel)) (f2 f hf)
      rw [p2]
      have := decimal_spec 42
      rwa [show decimal 42 = b! "42" by decide +kernel] at this)
  simpa [wires, Sent.wire, Function.comp_def] using this

-- a file in a directory is sent
example : ∃ s, send scpOs [b! "x/a", b! "/b//."] ⟨[], []⟩ = (.ok (), s) ∧
    output s.log = b! "C0644 42 a\nC0644 42 b\n" := ⟨_, rfl, by decide +kernel⟩

theorem components_go (p : Bytes) :
    (47 : Byte) ∉ (components.go p).1 ∧ ∀ c ∈ (components.go p).2, (47 : Byte) ∉ c := by
  induction p with
  | nil => simp [components.go]
  | cons b t ih =>
    unfold components.go
    split
    · refine ⟨by simp, ?_⟩
      intro c hc
      rcases List.mem_cons.mp hc with rfl | hc
      · exact ih.1
      · exact ih.2 c hc
    · rename_i hb
      exact ⟨by rw [List.mem_cons]; exact fun h => h.elim (fun e => hb e.symm) ih.1, ih.2⟩

/-- `scp -f` only sends names of files inside a directory: names without `/`, and not `.` or `..`. -/
theorem C56_names {p name : Bytes} (h : fileName p = .ok name) : Inside name := by
  unfold fileName at h
  split at h
  · rename_i c hc
    split at h
    · cases h
    · rename_i hdd
      cases h
      have hm := List.mem_of_getLast? hc
      unfold components at hm
      simp only [List.mem_filter, List.mem_cons] at hm
      obtain ⟨hm, hp⟩ := hm
      simp only [ne_eq, Bool.and_eq_true, decide_eq_true_eq] at hp
      refine ⟨hp.1, hp.2, hdd, ?_⟩
      rcases hm with rfl | hm
      · exact (components_go p).1
      · exact (components_go p).2 _ hm
  · cases h

/-! ### C63 -/

/-- an argument that is a flag -/
def Spec.Flag (a : Bytes) : Prop := a = b! "-d" ∨ a = b! "-f" ∨ a = b! "-t"

instance (a : Bytes) : Decidable (Spec.Flag a) := by unfold Spec.Flag; infer_instance

/-- an argument that looks like a flag, but is none -/
def Spec.UnknownFlag (a : Bytes) : Prop := Utf8 a ∧ a.head? = some 45 ∧ ¬ Flag a

/-- the mode: that of the last `-f` or `-t` -/
def Spec.LastMode (args : List Bytes) (mode : Mode) : Prop :=
  match mode with
  | .client => b! "-f" ∉ args ∧ b! "-t" ∉ args
  | .send => ∃ xs ys, args = xs ++ b! "-f" :: ys ∧ b! "-f" ∉ ys ∧ b! "-t" ∉ ys
  | .receive => ∃ xs ys, args = xs ++ b! "-t" :: ys ∧ b! "-f" ∉ ys ∧ b! "-t" ∉ ys

theorem prefix_dash (a : Bytes) : (b! "-").isPrefixOf a = true ↔ a.head? = some 45 := by
  rcases a with _ | ⟨c, t⟩
  · simp
  · show ((45 == c) && true) = true ↔ some c = some 45
    rw [Bool.and_true, beq_iff_eq, Option.some.injEq, eq_comm]

/-- what the arguments mean, after earlier ones -/
def ArgsMean (args : List Bytes) (m0 : Mode) (d0 : Bool) (p0 : List Bytes) : Prop :=
    ((∃ a ∈ args, UnknownFlag a) ∧ parseArgs args (m0, d0, p0) = .err .flag) ∨
    ((∀ a ∈ args, ¬ UnknownFlag a) ∧
      ∃ mode, parseArgs args (m0, d0, p0) = .ok (mode, d0 || decide (b! "-d" ∈ args),
        p0 ++ args.filter (fun a => decide (¬ Flag a))) ∧
        ((mode = m0 ∧ LastMode args .client) ∨ (mode ≠ .client ∧ LastMode args mode)))

theorem Scp.parseArgs_run (args : List Bytes) (m0 : Mode) (d0 : Bool) (p0 : List Bytes) :
    ArgsMean args m0 d0 p0 := by
  induction args generalizing m0 d0 p0 with
  | nil => exact .inr ⟨by simp, m0, by simp [parseArgs], .inl ⟨rfl, by simp [LastMode]⟩⟩
  | cons a as ih =>
    have hgen : ∀ m1 d1 p1, parseArgs (a :: as) (m0, d0, p0) = parseArgs as (m1, d1, p1) →
        ¬ UnknownFlag a → d1 = (d0 || decide (a = b! "-d")) →
        p1 = p0 ++ [a].filter (fun a => decide (¬ Flag a)) →
        ((a ≠ b! "-f" ∧ a ≠ b! "-t" ∧ m1 = m0) ∨ (a = b! "-f" ∧ m1 = .send) ∨
          (a = b! "-t" ∧ m1 = .receive)) → ArgsMean (a :: as) m0 d0 p0 := by
      intro m1 d1 p1 he hu hd hp hm
      rcases ih m1 d1 p1 with ⟨⟨b, hb, hbu⟩, h2⟩ | ⟨h1, mode, h2, h3⟩
      · exact .inl ⟨⟨b, List.mem_cons_of_mem _ hb, hbu⟩, he.trans h2⟩
      · refine .inr ⟨?_, mode, ?_, ?_⟩
        · intro b hb
          rcases List.mem_cons.mp hb with rfl | hb
          · exact hu
          · exact h1 b hb
        · rw [he, h2, hd, hp]
          congr 2
          congr 1
          · rw [Bool.or_assoc]
            congr 1
            by_cases hx : a = b! "-d" <;> simp [hx, eq_comm]
          · rw [List.append_assoc, ← List.filter_append]; rfl
        · rcases h3 with ⟨rfl, h3⟩ | ⟨h3, h4⟩
          · rcases hm with ⟨q1, q2, rfl⟩ | ⟨rfl, rfl⟩ | ⟨rfl, rfl⟩
            · exact .inl ⟨rfl, by simp [LastMode] at h3 ⊢; exact ⟨⟨fun e => q1 e.symm, h3.1⟩, fun e => q2 e.symm, h3.2⟩⟩
            · exact .inr ⟨by simp, [], as, rfl, h3.1, h3.2⟩
            · exact .inr ⟨by simp, [], as, rfl, h3.1, h3.2⟩
          · refine .inr ⟨h3, ?_⟩
            cases mode with
            | client => exact absurd rfl h3
            | send => obtain ⟨xs, ys, rfl, h5⟩ := h4; exact ⟨a :: xs, ys, rfl, h5⟩
            | receive => obtain ⟨xs, ys, rfl, h5⟩ := h4; exact ⟨a :: xs, ys, rfl, h5⟩
    by_cases h1 : a = b! "-d"
    · refine hgen m0 true p0 (by rw [parseArgs, if_pos h1]) (fun h => h.2.2 (.inl h1)) (by simp [h1]) ?_
        (.inl ⟨by rw [h1]; decide, by rw [h1]; decide, rfl⟩)
      simp [Flag, h1]
    by_cases h2 : a = b! "-f"
    · refine hgen .send d0 p0 (by rw [parseArgs, if_neg h1, if_pos h2]) (fun h => h.2.2 (.inr (.inl h2)))
        (by simp [h1]) ?_ (.inr (.inl ⟨h2, rfl⟩))
      simp [Flag, h2]
    by_cases h3 : a = b! "-t"
    · refine hgen .receive d0 p0 (by rw [parseArgs, if_neg h1, if_neg h2, if_pos h3])
        (fun h => h.2.2 (.inr (.inr h3))) (by simp [h1]) ?_ (.inr (.inr ⟨h3, rfl⟩))
      simp [Flag, h3]
    have hnf : ¬ Flag a := by
      rintro (h | h | h)
      · exact h1 h
      · exact h2 h
      · exact h3 h
    by_cases h4 : (Utf8.valid a && (b! "-").isPrefixOf a) = true
    · left
      refine ⟨⟨a, by simp, ?_⟩, by rw [parseArgs, if_neg h1, if_neg h2, if_neg h3, if_pos h4]⟩
      rw [Bool.and_eq_true, Utf8.valid_iff, prefix_dash] at h4
      exact ⟨h4.1, h4.2, hnf⟩
    · refine hgen m0 d0 (p0 ++ [a]) (by rw [parseArgs, if_neg h1, if_neg h2, if_neg h3, if_neg h4])
        ?_ (by simp [h1]) (by simp [hnf]) (.inl ⟨h2, h3, rfl⟩)
      intro h
      apply h4
      rw [Bool.and_eq_true, Utf8.valid_iff, prefix_dash]
      exact ⟨h.1, h.2.1⟩

/-- C63: arguments are accepted unless one looks like a flag but is none. The mode is that of the last `-f`
or `-t`, directory mode is on if there is a `-d`, and all other arguments are the paths, in order. -/
theorem C63_accepted (args : List Bytes) (mode : Mode) (dir : Bool) (paths : List Bytes) :
    parseArgs args (.client, false, []) = .ok (mode, dir, paths) ↔
      (∀ a ∈ args, ¬ UnknownFlag a) ∧ LastMode args mode ∧ (dir = true ↔ b! "-d" ∈ args) ∧
        paths = args.filter (fun a => decide (¬ Flag a)) := by
  have huniq : ∀ m, LastMode args m → LastMode args mode → m = mode := by
    intro m hm hm'
    have key : ∀ (x y : Bytes), (x = b! "-f" ∨ x = b! "-t") → (y = b! "-f" ∨ y = b! "-t") →
        (∃ xs ys, args = xs ++ x :: ys ∧ b! "-f" ∉ ys ∧ b! "-t" ∉ ys) →
        (∃ xs ys, args = xs ++ y :: ys ∧ b! "-f" ∉ ys ∧ b! "-t" ∉ ys) → x = y := by
      rintro x y hx hy ⟨xs, ys, rfl, a1, a2⟩ ⟨xs', ys', he, b1, b2⟩
      rcases List.append_eq_append_iff.mp he with ⟨zs, e1, e2⟩ | ⟨zs, e1, e2⟩
      · rcases zs with _ | ⟨z, zs⟩
        · cases e2; rfl
        · cases e2
          rcases hy with rfl | rfl
          · exact absurd (by simp) a1
          · exact absurd (by simp) a2
      · rcases zs with _ | ⟨z, zs⟩
        · cases e2; rfl
        · cases e2
          rcases hx with rfl | rfl
          · exact absurd (by simp) b1
          · exact absurd (by simp) b2
    have no : ∀ (x : Bytes), (x = b! "-f" ∨ x = b! "-t") → LastMode args .client →
        ¬ ∃ xs ys, args = xs ++ x :: ys ∧ b! "-f" ∉ ys ∧ b! "-t" ∉ ys := by
      rintro x hx ⟨a1, a2⟩ ⟨xs, ys, rfl, -⟩
      rcases hx with rfl | rfl
      · exact a1 (by simp)
      · exact a2 (by simp)
    cases m <;> cases mode
    · rfl
    · exact absurd hm' (no _ (.inl rfl) hm)
    · exact absurd hm' (no _ (.inr rfl) hm)
    · exact absurd hm (no _ (.inl rfl) hm')
    · rfl
    · exact absurd (key _ _ (.inl rfl) (.inr rfl) hm hm') (by decide)
    · exact absurd hm (no _ (.inr rfl) hm')
    · exact absurd (key _ _ (.inr rfl) (.inl rfl) hm hm') (by decide)
    · rfl
  rcases parseArgs_run args .client false [] with ⟨⟨a, ha, hu⟩, h⟩ | ⟨h1, m, h2, h3⟩
  · rw [h]
    exact ⟨by simp, fun hh => absurd hu (hh.1 a ha)⟩
  · have hm : LastMode args m := by
      rcases h3 with ⟨rfl, h3⟩ | ⟨-, h3⟩ <;> exact h3
    rw [h2]
    constructor
    · intro h
      cases h
      exact ⟨h1, hm, by simp, by simp⟩
    · rintro ⟨-, q1, q2, rfl⟩
      cases huniq m hm q1
      congr 2
      congr 1
      · cases dir with
        | true => simpa using q2
        | false => simpa using q2

/-- C63: otherwise there is an error, and nothing is done. Without `-f` and `-t` the program panics. -/
theorem C63_refused (os : Os) (args : List Bytes) (s : St) :
    ((∃ a ∈ args, UnknownFlag a) → start os args s = (.err .flag, s)) ∧
    ((∀ a ∈ args, ¬ UnknownFlag a) → LastMode args .client → start os args s = (.panic, s)) := by
  constructor
  · rintro ⟨a, ha, hu⟩
    rcases parseArgs_run args .client false [] with ⟨-, h⟩ | ⟨h1, -⟩
    · unfold start
      exact S.bind_err (by rw [h]; rfl)
    · exact absurd hu (h1 a ha)
  · intro h1 h2
    have := (C63_accepted args .client (decide (b! "-d" ∈ args)) _).mpr ⟨h1, h2, by simp, rfl⟩
    unfold start
    refine (S.bind_ok (a := _) (s' := s) (by rw [this]; rfl)).trans rfl

/-- C63: in the other modes, files are received or sent with these paths. -/
theorem C63_start (os : Os) (args : List Bytes) (s : St) (h : ∀ a ∈ args, ¬ UnknownFlag a) :
    (LastMode args .receive → start os args s =
      receive os (args.filter (fun a => decide (¬ Flag a))) (decide (b! "-d" ∈ args)) s) ∧
    (LastMode args .send → start os args s =
      send os (args.filter (fun a => decide (¬ Flag a))) s) := by
  constructor <;> intro h2
  · have := (C63_accepted args .receive (decide (b! "-d" ∈ args)) _).mpr ⟨h, h2, by simp, rfl⟩
    unfold start
    exact (S.bind_ok (a := _) (s' := s) (by rw [this]; rfl)).trans rfl
  · have := (C63_accepted args .send (decide (b! "-d" ∈ args)) _).mpr ⟨h, h2, by simp, rfl⟩
    unfold start
    exact (S.bind_ok (a := _) (s' := s) (by rw [this]; rfl)).trans rfl

-- `scp -d x -f -t y`
example : parseArgs [b! "-d", b! "x", b! "-f", b! "-t", b! "y"] (.client, false, []) =
    .ok (.receive, true, [b! "x", b! "y"]) := by decide +kernel
-- `scp -t -r x`
example : UnknownFlag (b! "-r") := ⟨Ascii.utf8 (by decide +kernel), rfl, by decide⟩

end Nora
