import Verif.Props.Scp
/-
C54, C56, C57, C63: `scp` as a whole.
-/
namespace Nora
open R Scp Spec

/-! ### C54 -/

theorem scan_stores {evs : List Ev} {n : Nat} {as : List Nat} {files : List (Bytes × Bytes)}
    (h : Stores evs n as files) : scan evs = ⟨n, as, files⟩ := by
  have := h.2 0 [] []
  simpa [scan] using this

/-- the start in directory mode -/
theorem Scp.receive_dir (os : Os) (dir inp : Bytes) :
    (∃ log, (log = [] ∨ log = [.createDirAll dir] ∨ log = [.createDirAll dir, .chdir dir]) ∧
      receive os [dir] true ⟨inp, []⟩ = (err .io, ⟨inp, log⟩)) ∨
    receive os [dir] true ⟨inp, []⟩ = dirLoop os ⟨inp, [.createDirAll dir, .chdir dir, .ack]⟩ := by
  unfold receive
  rw [if_pos rfl]
  simp only
  rcases op_cases os (.createDirAll dir) ⟨inp, []⟩ with h1 | h1
  · rw [S.bind_ok h1]
    rcases op_cases os (.chdir dir) ⟨inp, [] ++ [.createDirAll dir]⟩ with h2 | h2
    · rw [S.bind_ok h2]
      rcases op_cases os .ack ⟨inp, [] ++ [.createDirAll dir] ++ [.chdir dir]⟩ with h3 | h3
      · rw [S.bind_ok h3]
        exact .inr rfl
      · rw [S.bind_err h3]
        exact .inl ⟨_, .inr (.inr rfl), rfl⟩
    · rw [S.bind_err h2]
      exact .inl ⟨_, .inr (.inl rfl), rfl⟩
  · rw [S.bind_err h1]
    exact .inl ⟨_, .inl rfl, rfl⟩

theorem scan_dirPrefix (dir : Bytes) {evs : List Ev} {n : Nat} {as : List Nat}
    {files : List (Bytes × Bytes)} (h : Stores evs n as files) :
    scan ([.createDirAll dir, .chdir dir, .ack] ++ evs) = ⟨n, 0 :: as, files⟩ := by
  have := h.2 0 [0] []
  simpa [scan, Scan.step] using this

/-- C54 in directory mode, however the session ends: the input begins with files that were stored with
exactly their announced length, under their announced names. After them there may be one more file, of
which a header was accepted and a part of the content stored. Acknowledgements are sent at the beginning,
after each header, and after each file, only. -/
theorem C54_dir_any (os : Os) (dir inp : Bytes) (r : R Err Unit) (s' : St)
    (h : receive os [dir] true ⟨inp, []⟩ = (r, s')) :
    ∃ (fs : List (Sent × Bytes)) (tail : Bytes) (as : List Nat) (last : List (Bytes × Bytes)),
      (∀ f ∈ fs, Announces f.1 f.2) ∧ inp = wires (fs.map (·.1)) ++ tail ∧
      Broken tail Eq as last ∧
      (scan s'.log).files = storedFiles fs ++ last ∧
      ((scan s'.log).acks = [] ∧ fs = [] ∧ last = [] ∨
        (scan s'.log).acks = 0 :: (points 0 (fs.map (·.1)) ++
          as.map (fun a => (wires (fs.map (·.1))).length + a))) ∧
      (r = .ok () → tail = [] ∧ last = [] ∧ (scan s'.log).acks = 0 :: points 0 (fs.map (·.1))) ∧
      (r = .panic → tail.head? = some 68) := by
  rcases receive_dir os dir inp with ⟨log, hlog, h1⟩ | h1
  · rw [h1] at h
    cases h
    refine ⟨[], inp, [], [], by simp, by simp [wires], .inl ⟨rfl, rfl⟩, ?_, .inl ⟨?_, rfl, rfl⟩,
      by simp, by simp⟩ <;>
    rcases hlog with rfl | rfl | rfl <;> rfl
  · rw [h1] at h
    unfold dirLoop at h
    obtain ⟨fs, tail, evs, m, as, last, a1, a2, a3, a4, a5, a6, a7⟩ :=
      dirLoopN_run os (inp.length + 1) ⟨inp, [.createDirAll dir, .chdir dir, .ack]⟩ (by simp)
    simp only at h a2
    rw [h] at a3 a6 a7
    simp only at a3 a6 a7
    have hs := scan_dirPrefix dir a4
    rw [← a3] at hs
    refine ⟨fs, tail, as, last, a1, a2, a5, by rw [hs], .inr (by rw [hs]), ?_, a7⟩
    intro hr
    obtain ⟨b1, b2, b3, -⟩ := a6 hr
    exact ⟨b1, b3, by rw [hs, b2]; simp⟩

/-- C54 in directory mode: if a session ends well, then the whole input are files that were stored with
exactly the announced number of bytes, which came right after the header. Acknowledgements are sent at the
beginning, after each header, and after each file. -/
theorem C54_dir (os : Os) (dir inp : Bytes) (s' : St)
    (h : receive os [dir] true ⟨inp, []⟩ = (.ok (), s')) :
    ∃ fs : List (Sent × Bytes), (∀ f ∈ fs, Announces f.1 f.2) ∧ inp = wires (fs.map (·.1)) ∧
      (scan s'.log).files = fs.map (fun f => (f.2, f.1.content)) ∧
      (scan s'.log).acks = 0 :: points 0 (fs.map (·.1)) := by
  obtain ⟨fs, tail, as, last, a1, a2, a3, a4, a5, a6, a7⟩ := C54_dir_any os dir inp _ s' h
  obtain ⟨b1, b2, b3⟩ := a6 rfl
  subst b1 b2
  exact ⟨fs, a1, by simpa using a2, by simpa [storedFiles] using a4, b3⟩

/-- C54 with paths, however the session ends: as `C54_dir_any`, but the files are stored under the given
paths. -/
theorem C54_paths_any (os : Os) (to : List Bytes) (inp : Bytes) (r : R Err Unit) (s' : St)
    (h : receive os to false ⟨inp, []⟩ = (r, s')) :
    ∃ (fs : List (Sent × Bytes)) (tail : Bytes) (as : List Nat) (last : List (Bytes × Bytes)),
      (∀ f ∈ fs, ∃ name, Announces f.1 name) ∧ fs.map (·.2) <+: to ∧
      inp = wires (fs.map (·.1)) ++ tail ∧
      Broken tail (fun _ q => fs.map (·.2) ++ [q] <+: to) as last ∧
      (scan s'.log).files = storedFiles fs ++ last ∧
      ((scan s'.log).acks = [] ∧ fs = [] ∧ last = [] ∨
        (scan s'.log).acks = 0 :: (points 0 (fs.map (·.1)) ++
          as.map (fun a => (wires (fs.map (·.1))).length + a))) ∧
      (r = .ok () → fs.map (·.2) = to ∧ last = [] ∧ s'.inp = tail ∧
        (scan s'.log).acks = 0 :: points 0 (fs.map (·.1))) ∧
      (r = .panic → tail.head? = some 68) := by
  unfold receive at h
  simp only [Bool.false_eq_true, if_false] at h
  rcases op_cases os .ack ⟨inp, []⟩ with h1 | h1
  · rw [S.bind_ok h1] at h
    obtain ⟨fs, tail, evs, m, as, last, a1, a0, a2, a3, a4, a5, a6, a7⟩ :=
      pathLoop_run os to ⟨inp, [] ++ [.ack]⟩
    simp only at h a2
    rw [h] at a3 a6 a7
    simp only at a3 a6 a7
    have hs : scan s'.log = ⟨m, 0 :: (points 0 (fs.map (·.1)) ++
        as.map (fun a => (wires (fs.map (·.1))).length + a)), storedFiles fs ++ last⟩ := by
      have := a4.2 0 [0] []
      rw [a3]
      simpa [scan, Scan.step, Function.comp_def] using this
    refine ⟨fs, tail, as, last, a1, a0, a2, a5, by rw [hs], .inr (by rw [hs]), ?_, a7⟩
    intro hr
    obtain ⟨b1, b2, b3, b4⟩ := a6 hr
    exact ⟨b1, b3, b4, by rw [hs, b2]; simp⟩
  · rw [S.bind_err h1] at h
    cases h
    exact ⟨[], inp, [], [], by simp, by simp, by simp [wires], .inl ⟨rfl, rfl⟩, rfl,
      .inl ⟨rfl, rfl, rfl⟩, by simp, by simp⟩

/-- C54 with paths: if a session ends well, then each path holds exactly the announced number of bytes,
which came right after the header. -/
theorem C54_paths (os : Os) (to : List Bytes) (inp : Bytes) (s' : St)
    (h : receive os to false ⟨inp, []⟩ = (.ok (), s')) :
    ∃ fs : List (Sent × Bytes), (∀ f ∈ fs, ∃ name, Announces f.1 name) ∧ fs.map (·.2) = to ∧
      inp = wires (fs.map (·.1)) ++ s'.inp ∧
      (scan s'.log).files = fs.map (fun f => (f.2, f.1.content)) ∧
      (scan s'.log).acks = 0 :: points 0 (fs.map (·.1)) := by
  obtain ⟨fs, tail, as, last, a1, a0, a2, a3, a4, a5, a6, a7⟩ := C54_paths_any os to inp _ s' h
  obtain ⟨b1, b2, b3, b4⟩ := a6 rfl
  subst b2 b3
  exact ⟨fs, a1, b1, a2, by simpa [storedFiles] using a4, b4⟩

/-- in directory mode, files on the wire are received if nothing fails -/
theorem Scp.dirLoop_works {os : Os} (hos : Works os) (fs : List (Sent × Bytes))
    (hf : ∀ f ∈ fs, Announces f.1 f.2) (n : Nat) (log : List Ev)
    (hn : (wires (fs.map (·.1))).length < n) :
    ∃ s', dirLoopN os n ⟨wires (fs.map (·.1)), log⟩ = (.ok (), s') := by
  induction fs generalizing n log with
  | nil =>
    obtain ⟨k, rfl⟩ : ∃ k, n = k + 1 := ⟨n - 1, by omega⟩
    exact ⟨⟨[], log⟩, rfl⟩
  | cons f fs ih =>
    obtain ⟨k, rfl⟩ : ∃ k, n = k + 1 := ⟨n - 1, by omega⟩
    obtain ⟨mode, c1, c2, c3⟩ := hf f (by simp)
    rw [List.map_cons, wires_cons] at hn ⊢
    have hpos := wire_pos f.1
    rw [List.length_append] at hn
    have hhead := readHeader_iff (inp := f.1.wire ++ wires (fs.map (·.1))) (log := log)
      (s' := ⟨f.1.content ++ 0 :: wires (fs.map (·.1)),
        log ++ [.read (f.1.hdr.take 1), .read (f.1.hdr.drop 1)]⟩) |>.mpr
      ⟨f.1.hdr, by simp [Sent.wire], ⟨c3, .inl c2⟩, c1, rfl⟩
    have hfile : ∃ log', dirFile os ⟨f.1.wire ++ wires (fs.map (·.1)), log⟩ =
        (.ok true, ⟨wires (fs.map (·.1)), log'⟩) := by
      unfold dirFile
      rw [S.bind_ok hhead]
      simp only
      rw [S.bind_ok (op_works hos _ _), S.bind_ok (op_works hos _ _)]
      obtain ⟨log', ht⟩ := transfer_works hos f.1.content (wires (fs.map (·.1)))
        (log ++ [.read (f.1.hdr.take 1), .read (f.1.hdr.drop 1)] ++ [.create f.2] ++ [.ack])
      refine ⟨log', ?_⟩
      rw [S.bind_ok ht]
      rfl
    obtain ⟨log', hfile⟩ := hfile
    obtain ⟨s', hs'⟩ := ih (fun g hg => hf g (by simp [hg])) k log' (by omega)
    refine ⟨s', ?_⟩
    rw [dirLoopN, S.bind_ok hfile]
    exact hs'

/-- C54, the other direction: whatever files are sent, if nothing fails then they are stored, in directory
mode. -/
theorem C54_complete (os : Os) (hos : Works os) (dir : Bytes) (fs : List (Sent × Bytes))
    (hf : ∀ f ∈ fs, Announces f.1 f.2) :
    ∃ s', receive os [dir] true ⟨wires (fs.map (·.1)), []⟩ = (.ok (), s') ∧
      (scan s'.log).files = fs.map (fun f => (f.2, f.1.content)) := by
  have hrec : receive os [dir] true ⟨wires (fs.map (·.1)), []⟩ =
      dirLoop os ⟨wires (fs.map (·.1)), [.createDirAll dir, .chdir dir, .ack]⟩ := by
    unfold receive
    rw [if_pos rfl]
    simp only
    rw [S.bind_ok (op_works hos _ _), S.bind_ok (op_works hos _ _), S.bind_ok (op_works hos _ _)]
    rfl
  obtain ⟨s', hs'⟩ := dirLoop_works hos fs hf _ [.createDirAll dir, .chdir dir, .ack]
    (Nat.lt_succ_self _)
  refine ⟨s', hrec.trans hs', ?_⟩
  obtain ⟨gs, g1, g2, g3, -⟩ := C54_dir os dir _ s' (hrec.trans hs')
  rw [g3, wires_unique hf g1 g2]

/-- an operating system in which nothing fails and all files are empty -/
def scpOs : Os := { ok := fun _ _ => true, part := fun _ => 0, content := fun _ => ([], true) }

theorem scpOs_works : Works scpOs := fun _ _ => rfl

theorem announces_header {mode ds name content : Bytes} (hm : Plain mode) (hn : Plain name)
    (hd : Decimal ds content.length) (hs : content.length < 2 ^ 64) (hum : Utf8 mode)
    (hun : Utf8 name) : Announces ⟨scpHeader mode ds name, content⟩ name := by
  obtain ⟨h1, h2⟩ := scpHeader_accepted hm hn hd hs hum hun
  refine ⟨_, h1, ?_, (h2 []).1⟩
  unfold scpHeader; exact List.getLast?_concat

/-- two files: one of 40000 bytes (two chunks), and an empty one -/
def scpDemo : List (Sent × Bytes) :=
  [(⟨scpHeader (b! "0644") (decimal 40000) (b! "a"), List.replicate 40000 7⟩, b! "a"),
   (⟨scpHeader (b! "0600") (decimal 0) (b! "b"), []⟩, b! "b")]

theorem scpDemo_announces : ∀ f ∈ scpDemo, Announces f.1 f.2 := by
  intro f hf
  simp only [scpDemo, List.mem_cons, List.not_mem_nil, or_false] at hf
  rcases hf with rfl | rfl
  · exact announces_header ⟨by decide +kernel, by decide +kernel⟩ ⟨by decide +kernel, by decide +kernel⟩
      (by rw [List.length_replicate]; exact decimal_spec 40000) (by rw [List.length_replicate]; decide)
      (Ascii.utf8 (by decide +kernel)) (Ascii.utf8 (by decide +kernel))
  · exact announces_header ⟨by decide +kernel, by decide +kernel⟩ ⟨by decide +kernel, by decide +kernel⟩
      (decimal_spec 0) (by decide) (Ascii.utf8 (by decide +kernel)) (Ascii.utf8 (by decide +kernel))

-- they are stored
example : ∃ s', receive scpOs [b! "dir"] true ⟨wires (scpDemo.map (·.1)), []⟩ = (.ok (), s') ∧
    (scan s'.log).files = [(b! "a", List.replicate 40000 7), (b! "b", [])] :=
  C54_complete scpOs scpOs_works _ scpDemo scpDemo_announces

/-! ### C57 -/

theorem growLast_names (bs : Bytes) (fs : List (Bytes × Bytes)) :
    (growLast bs fs).map (·.1) = fs.map (·.1) := by
  induction fs with
  | nil => rfl
  | cons f t ih =>
    rcases t with _ | ⟨g, u⟩
    · rfl
    · rw [growLast, List.map_cons, ih, ← List.map_cons]
      simp

theorem foldl_names (log : List Ev) (sc : Scan) (p : Bytes) :
    p ∈ (log.foldl Scan.step sc).files.map (·.1) ↔ p ∈ sc.files.map (·.1) ∨ .create p ∈ log := by
  induction log generalizing sc with
  | nil => simp
  | cons e t ih =>
    rw [List.foldl_cons, ih]
    cases e <;> simp only [Scan.step, growLast_names, List.mem_cons, reduceCtorEq, false_or, List.map_append,
      List.map_cons, List.map_nil, List.mem_append, Ev.create.injEq, List.not_mem_nil, or_false, or_assoc]

/-- the files of a log are those that were created -/
theorem scan_names {log : List Ev} {p : Bytes} :
    p ∈ (scan log).files.map (·.1) ↔ .create p ∈ log := by
  rw [scan, foldl_names]; simp

/-- names in accepted lines have no spaces and newlines -/
theorem accepted_plain {hdr rest mode p : Bytes} {size : Nat} (e2 : Line hdr rest)
    (ha : HeaderLine hdr mode size p) : Plain p := by
  obtain ⟨m, ds, file, more, -, hh, -, -, hf, hmore, -, -, hn, -⟩ := ha
  constructor
  · intro hm
    rcases hn with ⟨rfl, -⟩ | rfl
    · exact hf hm
    · exact hf (List.mem_append_left _ hm)
  · intro hm
    have hlast : ∀ (x y z : Bytes), hdr = x ++ y ++ z → (10 : Byte) ∈ y →
        z = [] ∧ ∃ y', y = y' ++ [10] ∧ (10 : Byte) ∉ y' := by
      intro x y z hxyz hy
      have hz : z = [] := by
        rcases List.eq_nil_or_concat z with rfl | ⟨z', c, rfl⟩
        · rfl
        · exfalso
          apply e2.1
          rw [hxyz, List.concat_eq_append, ← List.append_assoc, List.dropLast_concat]
          simp [hy]
      subst hz
      refine ⟨rfl, ?_⟩
      rcases List.eq_nil_or_concat y with rfl | ⟨y', c, rfl⟩
      · cases hy
      · have hy' : (10 : Byte) ∉ y' := by
          intro hy'
          apply e2.1
          rw [hxyz, List.append_nil, List.concat_eq_append, ← List.append_assoc, List.dropLast_concat]
          simp [hy']
        refine ⟨y', ?_, hy'⟩
        rw [List.concat_eq_append] at hy ⊢
        rw [List.mem_append, List.mem_singleton] at hy
        rw [hy.resolve_left hy']
    rcases hn with ⟨rfl, hn⟩ | rfl
    · obtain ⟨-, y', hy, -⟩ := hlast (mode ++ 32 :: ds ++ [32]) file more (by rw [hh]; simp) hm
      exact hn (by rw [hy]; simp)
    · obtain ⟨-, y', hy, hno⟩ := hlast (mode ++ 32 :: ds ++ [32]) (p ++ [10]) more
        (by rw [hh]; simp) (by simp)
      have := List.append_inj_left' hy rfl
      exact hno (this ▸ hm)

/-- C57 as stated: only files inside the directory are created. -/
def C57_statement : Prop :=
  ∀ os dir inp r s', receive os [dir] true ⟨inp, []⟩ = (r, s') →
    ∀ p, .create p ∈ s'.log → Inside p

/-- C57 is false: a sender can use a name with `..` (or `/`). -/
theorem C57_refuted : ¬ C57_statement := by
  intro h
  have ha : Announces ⟨scpHeader (b! "0644") (decimal 0) (b! "../x"), []⟩ (b! "../x") :=
    announces_header ⟨by decide +kernel, by decide +kernel⟩ ⟨by decide +kernel, by decide +kernel⟩
      (decimal_spec 0) (by decide) (Ascii.utf8 (by decide +kernel)) (Ascii.utf8 (by decide +kernel))
  obtain ⟨s', h1, h2⟩ := C54_complete scpOs scpOs_works (b! "dir")
    [(⟨scpHeader (b! "0644") (decimal 0) (b! "../x"), []⟩, b! "../x")]
    (by intro f hf; rw [List.mem_singleton] at hf; subst hf; exact ha)
  have := h _ _ _ _ _ h1 (b! "../x") (scan_names.mp (by rw [h2]; simp))
  exact this.2.2.2 (by decide +kernel)

/-- C57, the part that holds: before any file is created, the program changes to the target directory, and
it never changes to another one. A file is created only with a name from a header in the input, as it is
there, without spaces and newlines. So if all names in headers are inside the directory, then all files
are.

Missing: the statement for all names, which is false (`C57_refuted`). -/
theorem C57_partial (os : Os) (dir inp : Bytes) (r : R Err Unit) (s' : St)
    (h : receive os [dir] true ⟨inp, []⟩ = (r, s')) (p : Bytes) (hp : .create p ∈ s'.log) :
    (∃ evs, s'.log = .createDirAll dir :: .chdir dir :: evs ∧
      ∀ e ∈ evs, ∀ q, e ≠ .chdir q ∧ e ≠ .createDirAll q) ∧
    (∃ pre hdr rest mode size, inp = pre ++ hdr ++ rest ∧ Line hdr rest ∧
      HeaderLine hdr mode size p) ∧
    Plain p := by
  have hsrc : ∃ pre hdr rest mode size, inp = pre ++ hdr ++ rest ∧ Line hdr rest ∧
      HeaderLine hdr mode size p := by
    obtain ⟨fs, tail, as, last, a1, a2, a3, a4, -⟩ := C54_dir_any os dir inp r s' h
    have hm := scan_names.mpr hp
    rw [a4, List.map_append, List.mem_append] at hm
    rcases hm with hm | hm
    · simp only [storedFiles, List.map_map, List.mem_map] at hm
      obtain ⟨f, hf, hfp⟩ := hm
      obtain ⟨l1, l2, rfl⟩ := List.append_of_mem hf
      obtain ⟨mode, c1, c2, c3⟩ := a1 f hf
      simp only [Function.comp] at hfp
      subst hfp
      refine ⟨wires (l1.map (·.1)), f.1.hdr, f.1.content ++ [0] ++ wires (l2.map (·.1)) ++ tail, mode, _,
        ?_, ⟨c3, .inl c2⟩, c1⟩
      rw [a2]
      simp [wires, Sent.wire]
    · rcases a3 with ⟨rfl, -⟩ | ⟨hdr, mode, size, name, path, data, rest, c1, c2, c3, rfl, rfl, -⟩
      · simp at hm
      · simp only [List.map_cons, List.map_nil, List.mem_singleton] at hm
        subst hm
        exact ⟨wires (fs.map (·.1)), hdr, rest, mode, size, by rw [a2, c1]; simp, c2, c3⟩
  refine ⟨?_, hsrc, ?_⟩
  · rcases receive_dir os dir inp with ⟨log, hlog, h1⟩ | h1
    · rw [h1] at h
      cases h
      rcases hlog with rfl | rfl | rfl <;> simp at hp
    · rw [h1] at h
      unfold dirLoop at h
      obtain ⟨fs, tail, evs, m, as, last, a1, a2, a3, a4, a5, a6, a7⟩ :=
        dirLoopN_run os (inp.length + 1) ⟨inp, [.createDirAll dir, .chdir dir, .ack]⟩ (by simp)
      simp only at h
      rw [h] at a3
      refine ⟨.ack :: evs, by simpa using a3, ?_⟩
      intro e he q
      rcases List.mem_cons.mp he with rfl | he
      · simp
      · exact a4.1 e he q
  · obtain ⟨pre, hdr, rest, mode, size, e1, e2, e3⟩ := hsrc
    exact accepted_plain e2 e3

end Nora
