import Verif.Props.ScpFiles
import Verif.Props.ScpSend
/-
C106: what the program `scp` (nora_scp) does with each input and in each environment, exactly: how it ends, with
which error, and everything it has done until then.
-/
namespace Nora
open R Scp Spec

/-! ### specification -/

/-- What is read and done if the first line is not understood: how the program ends, what it has read, and what is
left. -/
inductive Spec.BadHeader (w : Bytes) : R Err Unit → List Ev → Bytes → Prop
  /-- directories -/
  | directory {rest} : w = 68 :: rest → BadHeader w panic [.read [68]] rest
  | mode {c rest} : w = c :: rest → c ≠ 67 → c ≠ 68 → BadHeader w (err .mode) [.read [c]] rest
  | utf8 {l rest} : w = 67 :: l ++ rest → Line (67 :: l) rest → ¬ Utf8 (67 :: l) →
    BadHeader w (err .utf8) [.read [67], .read l] rest
  /-- fewer than three fields -/
  | missing {l rest} : w = 67 :: l ++ rest → Line (67 :: l) rest → Utf8 (67 :: l) → l.count 32 < 2 →
    BadHeader w (err .missing) [.read [67], .read l] rest
  /-- the second field is not the size -/
  | size {l rest m ds more} : w = 67 :: l ++ rest → Line (67 :: l) rest → Utf8 (67 :: l) →
    l = m ++ 32 :: ds ++ 32 :: more → (32 : Byte) ∉ m → (32 : Byte) ∉ ds →
    (∀ n < 2 ^ 64, ¬ Decimal ds n ∧ ∀ t, ds = 43 :: t → ¬ Decimal t n) →
    BadHeader w (err .size) [.read [67], .read l] rest

/-- The operations `es`, one after the other, until one fails; `l` is what has happened before. -/
inductive Spec.Ops (os : Os) : (l es : List Ev) → R Err Unit → List Ev → Prop
  | done {l} : Ops os l [] (ok ()) []
  | fails {l e es} : os.ok l e = false → Ops os l (e :: es) (err .io) []
  | next {l e es r evs} : os.ok l e = true → Ops os (l ++ [e]) es r evs → Ops os l (e :: es) r (e :: evs)

/-- `size` bytes of the input `w` are stored in pieces of 32768 bytes, and the last one. -/
inductive Spec.Copied (os : Os) : (l : List Ev) → (size : Nat) → (w : Bytes) → R Err Unit → List Ev →
    Bytes → Prop
  | done {l w} : Copied os l 0 w (ok ()) [] w
  /-- the input ends -/
  | short {l size w} : w.length < min size 32768 → Copied os l size w (err .io) [.read w] []
  /-- a piece cannot be written, or only a part of it -/
  | fails {l size c w} : 0 < size → c.length = min size 32768 → os.ok (l ++ [.read c]) (.write c) = false →
    Copied os l size (c ++ w) (err .io) [.read c, .write (c.take (os.part (l ++ [.read c])))] w
  | piece {l size c w r evs rest} : 0 < size → c.length = min size 32768 →
    os.ok (l ++ [.read c]) (.write c) = true →
    Copied os (l ++ [.read c, .write c]) (size - c.length) w r evs rest →
    Copied os l size (c ++ w) r (.read c :: .write c :: evs) rest

/-- The content of a file, and the byte 0 after it, which is acknowledged. -/
inductive Spec.Stored (os : Os) (l : List Ev) (size : Nat) (w : Bytes) : R Err Unit → List Ev → Bytes → Prop
  | fails {r evs rest} : Copied os l size w r evs rest → r ≠ ok () → Stored os l size w r evs rest
  | ends {evs} : Copied os l size w (ok ()) evs [] → Stored os l size w (err .io) (evs ++ [.read []]) []
  | other {evs c rest} : Copied os l size w (ok ()) evs (c :: rest) → c ≠ 0 →
    Stored os l size w (err .nul) (evs ++ [.read [c]]) rest
  | nul {evs rest r evs'} : Copied os l size w (ok ()) evs (0 :: rest) →
    Ops os (l ++ (evs ++ [.read [0]])) [.ack] r evs' →
    Stored os l size w r (evs ++ .read [0] :: evs') rest

/-- A file: the operations `es`, the first acknowledgement, and the content. -/
inductive Spec.FileOf (os : Os) (l es : List Ev) (size : Nat) (w : Bytes) : R Err Unit → List Ev → Bytes → Prop
  | fails {r evs} : Ops os l (es ++ [.ack]) r evs → r ≠ ok () → FileOf os l es size w r evs w
  | content {evs r evs' rest} : Ops os l (es ++ [.ack]) (ok ()) evs → Stored os (l ++ evs) size w r evs' rest →
    FileOf os l es size w r (evs ++ evs') rest

/-- the events of reading the header -/
def Spec.headerReads (hdr : Bytes) : List Ev := [.read (hdr.take 1), .read (hdr.drop 1)]

/-- Files are received into the current directory. -/
inductive Spec.DirFiles (os : Os) : (l : List Ev) → (w : Bytes) → R Err Unit → List Ev → Bytes → Prop
  | done {l} : DirFiles os l [] (ok ()) [] []
  | bad {l w r evs rest} : BadHeader w r evs rest → DirFiles os l w r evs rest
  | last {l hdr w mode size name r evs rest} : Line hdr w → HeaderLine hdr mode size name →
    FileOf os (l ++ headerReads hdr) [.create name] size w r evs rest → r ≠ ok () →
    DirFiles os l (hdr ++ w) r (headerReads hdr ++ evs) rest
  | next {l hdr w mode size name evs w' r evs' rest} : Line hdr w → HeaderLine hdr mode size name →
    FileOf os (l ++ headerReads hdr) [.create name] size w (ok ()) evs w' →
    DirFiles os (l ++ (headerReads hdr ++ evs)) w' r evs' rest →
    DirFiles os l (hdr ++ w) r (headerReads hdr ++ evs ++ evs') rest

/-- A file is received for each path. -/
inductive Spec.PathFiles (os : Os) : (l : List Ev) → List Bytes → (w : Bytes) → R Err Unit → List Ev →
    Bytes → Prop
  | done {l w} : PathFiles os l [] w (ok ()) [] w
  | few {l p ps} : PathFiles os l (p :: ps) [] (err .file) [] []
  | bad {l p ps w r evs rest} : BadHeader w r evs rest → PathFiles os l (p :: ps) w r evs rest
  | last {l p ps hdr w mode size name r evs rest} : Line hdr w → HeaderLine hdr mode size name →
    FileOf os (l ++ headerReads hdr) [.createParents p, .create p] size w r evs rest → r ≠ ok () →
    PathFiles os l (p :: ps) (hdr ++ w) r (headerReads hdr ++ evs) rest
  | next {l p ps hdr w mode size name evs w' r evs' rest} : Line hdr w → HeaderLine hdr mode size name →
    FileOf os (l ++ headerReads hdr) [.createParents p, .create p] size w (ok ()) evs w' →
    PathFiles os (l ++ (headerReads hdr ++ evs)) ps w' r evs' rest →
    PathFiles os l (p :: ps) (hdr ++ w) r (headerReads hdr ++ evs ++ evs') rest

/-- slashes, and dots that stand for the directory itself -/
inductive Spec.Trailing : Bytes → Prop
  | nil : Trailing []
  | slash {t} : Trailing t → Trailing (47 :: t)
  | dot {t} : Trailing t → Trailing (47 :: 46 :: t)

/-- The name of the file at a path: the last part between slashes. -/
def Spec.FileName (p name : Bytes) : Prop :=
  ∃ dir tail, p = dir ++ name ++ tail ∧ (dir = [] ∨ dir.getLast? = some 47) ∧ Inside name ∧ Trailing tail

/-- the header that is always sent -/
def Spec.sentHeader (name : Bytes) : Bytes := b! "C0644 42 " ++ name ++ [10]

/-- A file is sent for each path. -/
inductive Spec.Sends (os : Os) : (l : List Ev) → List Bytes → R Err Unit → List Ev → Prop
  | done {l} : Sends os l [] (ok ()) []
  | notOpened {l p ps} : os.ok l (.openFile p) = false → Sends os l (p :: ps) (err .io) []
  | noName {l p ps} : os.ok l (.openFile p) = true → (∀ name, ¬ FileName p name) →
    Sends os l (p :: ps) panic [.openFile p]
  | notUtf8 {l p ps name} : os.ok l (.openFile p) = true → FileName p name → ¬ Utf8 name →
    Sends os l (p :: ps) (err .utf8) [.openFile p]
  /-- the header cannot be written -/
  | noHeader {l p ps name} : os.ok l (.openFile p) = true → FileName p name → Utf8 name →
    os.ok (l ++ [.openFile p]) (.out (sentHeader name)) = false → Sends os l (p :: ps) panic [.openFile p]
  | noContent {l p ps name} : os.ok l (.openFile p) = true → FileName p name → Utf8 name →
    os.ok (l ++ [.openFile p]) (.out (sentHeader name)) = true →
    os.ok (l ++ [.openFile p, .out (sentHeader name)]) (.out (os.content p).1) = false →
    Sends os l (p :: ps) (err .io) [.openFile p, .out (sentHeader name)]
  /-- the file cannot be read to its end -/
  | notRead {l p ps name} : os.ok l (.openFile p) = true → FileName p name → Utf8 name →
    os.ok (l ++ [.openFile p]) (.out (sentHeader name)) = true →
    os.ok (l ++ [.openFile p, .out (sentHeader name)]) (.out (os.content p).1) = true →
    (os.content p).2 = false →
    Sends os l (p :: ps) (err .io) [.openFile p, .out (sentHeader name), .out (os.content p).1]
  | next {l p ps name r evs} : os.ok l (.openFile p) = true → FileName p name → Utf8 name →
    os.ok (l ++ [.openFile p]) (.out (sentHeader name)) = true →
    os.ok (l ++ [.openFile p, .out (sentHeader name)]) (.out (os.content p).1) = true →
    (os.content p).2 = true →
    Sends os (l ++ [.openFile p, .out (sentHeader name), .out (os.content p).1]) ps r evs →
    Sends os l (p :: ps) r (.openFile p :: .out (sentHeader name) :: .out (os.content p).1 :: evs)

/-- the paths among the arguments -/
def Spec.pathsOf (args : List Bytes) : List Bytes := args.filter (fun a => decide (¬ Flag a))

/-- What the program does: `w` is its input, `l` what has happened before. It ends with `r`, has done `evs`, and
leaves `rest` of its input. -/
inductive Spec.ScpRun (os : Os) (args : List Bytes) (l : List Ev) (w : Bytes) : R Err Unit → List Ev →
    Bytes → Prop
  | flag {a} : a ∈ args → UnknownFlag a → ScpRun os args l w (err .flag) [] w
  | client : (∀ a ∈ args, ¬ UnknownFlag a) → LastMode args .client → ScpRun os args l w panic [] w
  | send {r evs} : (∀ a ∈ args, ¬ UnknownFlag a) → LastMode args .send → Sends os l (pathsOf args) r evs →
    ScpRun os args l w r evs w
  /-- there must be one directory -/
  | noDir : (∀ a ∈ args, ¬ UnknownFlag a) → LastMode args .receive → b! "-d" ∈ args →
    (pathsOf args).length ≠ 1 → ScpRun os args l w (err .path) [] w
  | dirFails {dir r evs} : (∀ a ∈ args, ¬ UnknownFlag a) → LastMode args .receive → b! "-d" ∈ args →
    pathsOf args = [dir] → Ops os l [.createDirAll dir, .chdir dir, .ack] r evs → r ≠ ok () →
    ScpRun os args l w r evs w
  | dir {dir evs r evs' rest} : (∀ a ∈ args, ¬ UnknownFlag a) → LastMode args .receive → b! "-d" ∈ args →
    pathsOf args = [dir] → Ops os l [.createDirAll dir, .chdir dir, .ack] (ok ()) evs →
    DirFiles os (l ++ evs) w r evs' rest → ScpRun os args l w r (evs ++ evs') rest
  | pathsFail {r evs} : (∀ a ∈ args, ¬ UnknownFlag a) → LastMode args .receive → b! "-d" ∉ args →
    Ops os l [.ack] r evs → r ≠ ok () → ScpRun os args l w r evs w
  | paths {evs r evs' rest} : (∀ a ∈ args, ¬ UnknownFlag a) → LastMode args .receive → b! "-d" ∉ args →
    Ops os l [.ack] (ok ()) evs → PathFiles os (l ++ evs) (pathsOf args) w r evs' rest →
    ScpRun os args l w r (evs ++ evs') rest

/-! ### proofs: each is what the program does, and there is one for each input -/

section
variable {os : Os} {l es evs : List Ev} {w rest : Bytes} {r : R Err Unit}

theorem bad_ne_ok (h : Spec.BadHeader w r evs rest) : r ≠ ok () := by
  cases h <;> simp

/-- the same failure, of another computation -/
def scpFailed {α : Type} : R Err Unit → R Err α
  | ok _ => .panic
  | err e => err e
  | .panic => .panic

theorem bind_scpFailed {α β : Type} {x : S α} {f : α → S β} {s s' : St} (h : x s = (scpFailed r, s'))
    (hr : r ≠ ok ()) : (x >>= f) s = (scpFailed r, s') := by
  cases r with
  | ok => exact absurd rfl hr
  | err => exact S.bind_err h
  | panic => exact S.bind_panic h

theorem failed_eq (hr : r ≠ ok ()) : scpFailed r = r := by
  cases r with
  | ok => exact absurd rfl hr
  | _ => rfl

theorem okOr_err {α β : Type} {x : R β α} {e : Err} (h : ∀ a, x ≠ ok a) (hp : x ≠ R.panic) :
    x.okOr e = err e := by
  cases x with
  | ok a => exact absurd rfl (h a)
  | err => rfl
  | panic => exact absurd rfl hp

theorem fromUtf8_err {b : Bytes} (h : ¬ Spec.Utf8 b) : (Utf8.fromUtf8 b).okOr Err.utf8 = err .utf8 := by
  rcases hx : Utf8.fromUtf8 b with a | e | _
  · exact absurd (fromUtf8_eq_ok.mp hx).1 h
  · rfl
  · unfold Utf8.fromUtf8 at hx; split at hx <;> cases hx

theorem bad_readHeader (h : Spec.BadHeader w r evs rest) :
    readHeader ⟨w, l⟩ = (scpFailed r, ⟨rest, l ++ evs⟩) := by
  cases h with
  | directory h => subst h; rfl
  | mode h h1 h2 =>
    subst h
    unfold readHeader
    rw [S.bind_ok (show S.readByte ⟨_ :: rest, l⟩ = (ok (some _), ⟨rest, l ++ [.read [_]]⟩) from rfl)]
    simp only [h1, h2, if_false]
    rfl
  | utf8 h h1 h2 => rw [h, readHeader_C _ _ _ h1, fromUtf8_err h2]; rfl
  | @missing m _ h h1 h2 h3 =>
    rw [h, readHeader_C _ _ _ h1, fromUtf8_eq_ok.mpr ⟨h2, rfl⟩]
    obtain ⟨e1, -, -⟩ := split_spec (67 :: m)
    have h4 : (67 :: m).count 32 < 2 := by rw [List.count_cons_of_ne (by decide)]; exact h3
    rcases hs : (Scp.split (67 :: m)).2 with _ | ⟨a, _ | ⟨b, t⟩⟩
    · simp only [ok_okOr, R.ok_bind, hs]; rfl
    · simp only [ok_okOr, R.ok_bind, hs]; rfl
    · rw [hs] at e1
      rw [e1] at h4
      simp [List.count_append] at h4
      omega
  | @size m _ a ds more h h1 h2 h3 h4 h5 h6 =>
    rw [h, readHeader_C _ _ _ h1, fromUtf8_eq_ok.mpr ⟨h2, rfl⟩]
    have e1 := split_first (a := 67 :: a) (rest := 32 :: ds ++ 32 :: more)
      (by rw [List.mem_cons]; rintro (h | h); · cases h
          · exact h4 h) (.inr rfl)
    have e2 := split_first (a := ds) (rest := 32 :: more) h5 (.inr rfl)
    have hs : (Scp.split (67 :: m)).2 = ds :: (Scp.split more).1 :: (Scp.split more).2 := by
      rw [show 67 :: m = 67 :: a ++ (32 :: ds ++ 32 :: more) by rw [h3]; simp, e1.2]
      show (Scp.split (ds ++ 32 :: more)).1 :: (Scp.split (ds ++ 32 :: more)).2 = _
      rw [e2.1, e2.2]
      rfl
    simp only [ok_okOr, R.ok_bind, hs]
    have hp : (parseUsize ds).okOr Err.size = err .size := by
      refine okOr_err (fun n hn => ?_) parseUsize_ne_panic
      obtain ⟨g1, g2 | ⟨t, g2, g3⟩⟩ := parseUsize_eq_ok.mp hn
      · exact (h6 n g1).1 g2
      · exact (h6 n g1).2 t g2 g3
    rw [hp]
    rfl

/-- the input ends, or begins with a header that is understood or one that is not -/
theorem header_cases (w : Bytes) : w = [] ∨ (∃ r evs rest, Spec.BadHeader w r evs rest) ∨
    ∃ hdr rest mode size name, w = hdr ++ rest ∧ Line hdr rest ∧ HeaderLine hdr mode size name := by
  rcases w with _ | ⟨c, t⟩
  · exact .inl rfl
  right
  by_cases hc : c = 67
  · subst hc
    obtain ⟨h1, h2⟩ := line_drop (67 :: t)
    have hl : S.line (67 :: t) = 67 :: S.line t := by rw [S.line]; rfl
    rw [hl] at h1 h2
    generalize (67 :: t).drop (67 :: S.line t).length = rest at h1 h2
    generalize S.line t = m at h1 h2
    by_cases hu : Spec.Utf8 (67 :: m)
    · obtain ⟨e1, e2, e3⟩ := split_spec (67 :: m)
      rcases hs : (Scp.split (67 :: m)).2 with _ | ⟨ds, _ | ⟨file, more⟩⟩
      · left
        refine ⟨_, _, _, .missing h1 h2 hu ?_⟩
        rw [hs] at e1
        rw [List.map_nil, List.flatten_nil, List.append_nil] at e1
        rw [← e1] at e2
        rw [List.count_eq_zero.mpr fun h => e2 (List.mem_cons_of_mem _ h)]
        decide
      · left
        refine ⟨_, _, _, .missing h1 h2 hu ?_⟩
        rw [hs] at e1 e3
        have h4 : (67 :: m).count 32 = 1 := by
          rw [e1]
          simp only [List.map_cons, List.map_nil, List.flatten_cons, List.flatten_nil, List.append_nil,
            List.count_append, List.count_cons_self]
          rw [List.count_eq_zero.mpr e2, List.count_eq_zero.mpr (e3 ds List.mem_cons_self)]
        rw [List.count_cons_of_ne (by decide)] at h4
        omega
      · by_cases hp : ∃ n, parseUsize ds = ok n
        · obtain ⟨n, hp⟩ := hp
          exact .inr ⟨67 :: m, rest, _, n, _, h1, h2, split_accepted rfl (Prod.ext rfl hs) hp hu⟩
        · left
          rw [hs] at e1 e3
          rcases hm : (Scp.split (67 :: m)).1 with _ | ⟨c, a⟩
          · rw [hm] at e1; simp at e1
          rw [hm] at e1 e2
          simp only [List.map_cons, List.flatten_cons, List.cons_append, List.cons.injEq] at e1
          obtain ⟨-, e1⟩ := e1
          refine ⟨_, _, _, .size (m := a) (ds := ds) (more := file ++ (more.map (fun p => 32 :: p)).flatten)
            h1 h2 hu (by rw [e1]; simp) (fun h => e2 (List.mem_cons_of_mem _ h)) (e3 ds List.mem_cons_self) ?_⟩
          intro n hn
          exact ⟨fun h => hp ⟨n, parseUsize_eq_ok.mpr ⟨hn, .inl h⟩⟩,
            fun t ht h => hp ⟨n, parseUsize_eq_ok.mpr ⟨hn, .inr ⟨t, ht, h⟩⟩⟩⟩
    · exact .inl ⟨_, _, _, .utf8 h1 h2 hu⟩
  · left
    by_cases hd : c = 68
    · subst hd; exact ⟨_, _, _, .directory rfl⟩
    · exact ⟨_, _, _, .mode rfl hc hd⟩

/-- the operations of a list -/
def opsOf (os : Os) : List Ev → S Unit
  | [] => pure ()
  | e :: es => do
    S.op os e
    opsOf os es

theorem ops_run (h : Spec.Ops os l es r evs) : opsOf os es ⟨w, l⟩ = (r, ⟨w, l ++ evs⟩) := by
  induction h with
  | done => rw [List.append_nil]; rfl
  | @fails l e es h =>
    rw [List.append_nil]
    exact S.bind_err (show S.op os e ⟨w, l⟩ = _ by unfold S.op; simp only [h]; rfl)
  | @next l e es r evs h _ ih =>
    rw [opsOf, S.bind_ok (show S.op os e ⟨w, l⟩ = (ok (), ⟨w, l ++ [e]⟩) by unfold S.op; simp only [h]; rfl), ih,
      List.append_assoc]
    rfl

theorem ops_total (os : Os) (l es : List Ev) : ∃ r evs, Spec.Ops os l es r evs := by
  induction es generalizing l with
  | nil => exact ⟨_, _, .done⟩
  | cons e es ih =>
    cases h : os.ok l e with
    | false => exact ⟨_, _, .fails h⟩
    | true =>
      obtain ⟨r, evs, h'⟩ := ih (l ++ [e])
      exact ⟨_, _, .next h h'⟩

theorem copied_run {size : Nat} (h : Spec.Copied os l size w r evs rest) :
    copy os size ⟨w, l⟩ = (r, ⟨rest, l ++ evs⟩) := by
  induction h with
  | done => rw [copy, List.append_nil]; rfl
  | @short l size w h =>
    rw [copy, if_neg (by omega)]
    refine S.bind_err ?_
    unfold S.readExact
    rw [if_neg (by show ¬ min size (1 <<< 15) ≤ w.length; rw [show (1 <<< 15 : Nat) = 32768 from rfl]; omega)]
  | @fails l size c w h1 h2 h3 =>
    have hr : S.readExact (min size (1 <<< 15)) ⟨c ++ w, l⟩ = (ok c, ⟨w, l ++ [.read c]⟩) := by
      unfold S.readExact
      rw [show min size (1 <<< 15) = c.length from h2.symm, if_pos (by simp), List.take_left, List.drop_left]
    rw [copy, if_neg (by omega)]
    refine (S.bind_ok hr).trans (S.bind_err ?_)
    unfold S.write
    simp only [h3, Bool.false_eq_true, if_false, List.append_assoc]
    rfl
  | @piece l size c w r evs rest h1 h2 h3 _ ih =>
    have hr : S.readExact (min size (1 <<< 15)) ⟨c ++ w, l⟩ = (ok c, ⟨w, l ++ [.read c]⟩) := by
      unfold S.readExact
      rw [show min size (1 <<< 15) = c.length from h2.symm, if_pos (by simp), List.take_left, List.drop_left]
    have hw : S.write os c ⟨w, l ++ [.read c]⟩ = (ok (), ⟨w, l ++ [.read c, .write c]⟩) := by
      unfold S.write
      simp only [h3, if_true, List.append_assoc]
      rfl
    rw [copy, if_neg (by omega)]
    refine (S.bind_ok hr).trans ((S.bind_ok hw).trans ?_)
    rw [show min size (1 <<< 15) = c.length from h2.symm, ih, List.append_assoc]
    rfl

theorem copied_total (os : Os) (l : List Ev) (size : Nat) (w : Bytes) :
    ∃ r evs rest, Spec.Copied os l size w r evs rest := by
  induction size using Nat.strongRecOn generalizing l w with
  | ind size ih =>
    by_cases h0 : size = 0
    · subst h0; exact ⟨_, _, _, .done⟩
    by_cases hw : w.length < min size 32768
    · exact ⟨_, _, _, .short hw⟩
    have hc : (w.take (min size 32768)).length = min size 32768 := by rw [List.length_take]; omega
    rw [← List.take_append_drop (min size 32768) w]
    generalize w.take (min size 32768) = c at hc
    generalize w.drop (min size 32768) = w
    cases h : os.ok (l ++ [.read c]) (.write c) with
    | false => exact ⟨_, _, _, .fails (by omega) hc h⟩
    | true =>
      obtain ⟨r, evs, rest, h'⟩ := ih (size - c.length) (by omega) (l ++ [.read c, .write c]) w
      exact ⟨_, _, _, .piece (by omega) hc h h'⟩

theorem stored_run {size : Nat} (h : Spec.Stored os l size w r evs rest) :
    transferFile os size ⟨w, l⟩ = (r, ⟨rest, l ++ evs⟩) := by
  unfold transferFile
  cases h with
  | fails h hr =>
    have h := copied_run h
    rw [← failed_eq hr] at h
    rw [bind_scpFailed h hr, failed_eq hr]
  | @ends evs h =>
    rw [S.bind_ok (copied_run h), ← List.append_assoc]
    exact S.bind_err rfl
  | @other evs c rest h hc =>
    rw [S.bind_ok (copied_run h), S.bind_ok (show S.readExact 1 ⟨c :: rest, l ++ evs⟩ =
      (ok [c], ⟨rest, l ++ evs ++ [.read [c]]⟩) from by unfold S.readExact; simp),
      if_pos (by simpa using hc), List.append_assoc]
    rfl
  | @nul evs rest r evs' h h' =>
    rw [S.bind_ok (copied_run h), S.bind_ok (show S.readExact 1 ⟨0 :: rest, l ++ evs⟩ =
      (ok [0], ⟨rest, l ++ evs ++ [.read [0]]⟩) from by unfold S.readExact; simp),
      if_neg (by simp), List.append_assoc]
    have := ops_run (w := rest) h'
    rw [opsOf, S.bind_run] at this
    rw [show l ++ (evs ++ .read [0] :: evs') = l ++ (evs ++ [.read [0]]) ++ evs' by simp, ← this]
    rcases op_cases os .ack ⟨rest, l ++ (evs ++ [.read [0]])⟩ with h | h <;> rw [h] <;> rfl

theorem stored_total (os : Os) (l : List Ev) (size : Nat) (w : Bytes) :
    ∃ r evs rest, Spec.Stored os l size w r evs rest := by
  obtain ⟨r, evs, rest, h⟩ := copied_total os l size w
  by_cases hr : r = ok ()
  · subst hr
    rcases rest with _ | ⟨c, rest⟩
    · exact ⟨_, _, _, .ends h⟩
    · by_cases hc : c = 0
      · subst hc
        obtain ⟨r, evs', h'⟩ := ops_total os (l ++ (evs ++ [.read [0]])) [.ack]
        exact ⟨_, _, _, .nul h h'⟩
      · exact ⟨_, _, _, .other h hc⟩
  · exact ⟨_, _, _, .fails h hr⟩

/-- what is done for a file after its header -/
def fileBody (os : Os) (es : List Ev) (size : Nat) : S Unit := do
  opsOf os (es ++ [.ack])
  transferFile os size

theorem file_run {size : Nat} (h : Spec.FileOf os l es size w r evs rest) :
    fileBody os es size ⟨w, l⟩ = (r, ⟨rest, l ++ evs⟩) := by
  unfold fileBody
  cases h with
  | fails h hr =>
    have h := ops_run (w := w) h
    rw [← failed_eq hr] at h
    rw [bind_scpFailed h hr, failed_eq hr]
  | content h h' => rw [S.bind_ok (ops_run h), stored_run h', List.append_assoc]

theorem file_total (os : Os) (l es : List Ev) (size : Nat) (w : Bytes) :
    ∃ r evs rest, Spec.FileOf os l es size w r evs rest := by
  obtain ⟨r, evs, h⟩ := ops_total os l (es ++ [.ack])
  by_cases hr : r = ok ()
  · subst hr
    obtain ⟨r, evs', rest, h'⟩ := stored_total os (l ++ evs) size w
    exact ⟨_, _, _, .content h h'⟩
  · exact ⟨_, _, _, .fails h hr⟩

theorem opsOf_bind (os : Os) (e : Ev) (es : List Ev) (x : S Unit) :
    (opsOf os (e :: es) >>= fun _ => x) = S.op os e >>= fun _ => opsOf os es >>= fun _ => x := by
  rw [opsOf, S.bind_assoc]

theorem opsOf_nil (os : Os) (x : S Unit) : (opsOf os [] >>= fun _ => x) = x := rfl

theorem header_run {hdr w mode name : Bytes} {size : Nat} (h1 : Line hdr w) (h2 : HeaderLine hdr mode size name) :
    readHeader ⟨hdr ++ w, l⟩ = (ok (some (mode, size, name)), ⟨w, l ++ headerReads hdr⟩) :=
  readHeader_iff.mpr ⟨hdr, rfl, h1, h2, rfl⟩

theorem dirFile_after {hdr w mode name : Bytes} {size : Nat} (h1 : Line hdr w)
    (h2 : HeaderLine hdr mode size name) :
    dirFile os ⟨hdr ++ w, l⟩ = (do fileBody os [.create name] size; pure true : S Bool)
      ⟨w, l ++ headerReads hdr⟩ := by
  unfold dirFile
  rw [S.bind_ok (header_run h1 h2)]
  show (S.op os (.create name) >>= fun _ => S.op os .ack >>= fun _ => transferFile os size >>= fun _ =>
    pure true) _ = _
  unfold fileBody
  rw [show ([.create name] ++ [.ack] : List Ev) = [.create name, .ack] from rfl, opsOf_bind, opsOf_bind,
    opsOf_nil]
  simp only [S.bind_assoc]

theorem dir_run (h : Spec.DirFiles os l w r evs rest) : dirLoop os ⟨w, l⟩ = (r, ⟨rest, l ++ evs⟩) := by
  induction h with
  | done => rw [dirLoop_eq, List.append_nil]; rfl
  | @bad l w r evs rest h =>
    have hr := bad_ne_ok h
    rw [dirLoop_eq]
    have : dirFile os ⟨w, l⟩ = (scpFailed r, ⟨rest, l ++ evs⟩) := bind_scpFailed (bad_readHeader h) hr
    rw [bind_scpFailed this hr, failed_eq hr]
  | last h1 h2 h3 hr =>
    have h3 := file_run h3
    rw [← failed_eq hr] at h3
    rw [dirLoop_eq]
    have := (dirFile_after (os := os) (l := _) h1 h2).trans (bind_scpFailed h3 hr)
    rw [bind_scpFailed this hr, failed_eq hr, List.append_assoc]
  | next h1 h2 h3 _ ih =>
    rw [dirLoop_eq, S.bind_ok ((dirFile_after h1 h2).trans (S.bind_ok (file_run h3)))]
    simp only [List.append_assoc] at ih ⊢
    exact ih

theorem hdr_pos {hdr mode name : Bytes} {size : Nat} (h : HeaderLine hdr mode size name) : 0 < hdr.length := by
  obtain ⟨m, ds, file, more, hm, hh, -⟩ := h
  rw [hh, hm]; simp

theorem copied_le {size : Nat} (h : Spec.Copied os l size w r evs rest) : rest.length ≤ w.length := by
  induction h with
  | done => exact Nat.le_refl _
  | short => exact Nat.zero_le _
  | fails => rw [List.length_append]; omega
  | piece _ _ _ _ ih => rw [List.length_append]; omega

theorem file_le {size : Nat} (h : Spec.FileOf os l es size w r evs rest) : rest.length ≤ w.length := by
  cases h with
  | fails => exact Nat.le_refl _
  | content _ h =>
    cases h with
    | fails h => exact copied_le h
    | ends => exact Nat.zero_le _
    | other h => have := copied_le h; rw [List.length_cons] at this; omega
    | nul h => have := copied_le h; rw [List.length_cons] at this; omega

theorem dir_total (os : Os) (l : List Ev) (w : Bytes) : ∃ r evs rest, Spec.DirFiles os l w r evs rest := by
  generalize hn : w.length = n
  induction n using Nat.strongRecOn generalizing l w with
  | ind n ih =>
    rcases header_cases w with rfl | ⟨r, evs, rest, h⟩ | ⟨hdr, w', mode, size, name, rfl, h1, h2⟩
    · exact ⟨_, _, _, .done⟩
    · exact ⟨_, _, _, .bad h⟩
    · obtain ⟨r, evs, rest, h⟩ := file_total os (l ++ headerReads hdr) [.create name] size w'
      by_cases hr : r = ok ()
      · subst hr
        have := file_le h
        have := hdr_pos h2
        rw [List.length_append] at hn
        obtain ⟨r, evs', rest', h'⟩ := ih rest.length (by omega) (l ++ (headerReads hdr ++ evs)) rest rfl
        exact ⟨_, _, _, .next h1 h2 h h'⟩
      · exact ⟨_, _, _, .last h1 h2 h hr⟩

theorem pathFile_after {p hdr w mode name : Bytes} {size : Nat} (h1 : Line hdr w)
    (h2 : HeaderLine hdr mode size name) :
    pathFile os p ⟨hdr ++ w, l⟩ = fileBody os [.createParents p, .create p] size ⟨w, l ++ headerReads hdr⟩ := by
  unfold pathFile
  rw [S.bind_ok (header_run h1 h2)]
  show (S.op os (.createParents p) >>= fun _ => S.op os (.create p) >>= fun _ => S.op os .ack >>= fun _ =>
    transferFile os size) _ = _
  unfold fileBody
  rw [show ([.createParents p, .create p] ++ [.ack] : List Ev) = [.createParents p, .create p, .ack] from rfl,
    opsOf_bind, opsOf_bind, opsOf_bind, opsOf_nil]

theorem paths_run {ps : List Bytes} (h : Spec.PathFiles os l ps w r evs rest) :
    pathLoop os ps ⟨w, l⟩ = (r, ⟨rest, l ++ evs⟩) := by
  induction h with
  | done => rw [List.append_nil]; rfl
  | few => rw [List.append_nil]; rfl
  | @bad l p ps w r evs rest h =>
    have hr := bad_ne_ok h
    have : pathFile os p ⟨w, l⟩ = (scpFailed r, ⟨rest, l ++ evs⟩) := bind_scpFailed (bad_readHeader h) hr
    rw [pathLoop, bind_scpFailed this hr, failed_eq hr]
  | last h1 h2 h3 hr =>
    have h3 := file_run h3
    rw [← failed_eq hr] at h3
    rw [pathLoop, bind_scpFailed ((pathFile_after h1 h2).trans h3) hr, failed_eq hr, List.append_assoc]
  | next h1 h2 h3 _ ih =>
    rw [pathLoop, S.bind_ok ((pathFile_after h1 h2).trans (file_run h3))]
    simp only [List.append_assoc] at ih ⊢
    exact ih

theorem paths_total (os : Os) (l : List Ev) (ps : List Bytes) (w : Bytes) :
    ∃ r evs rest, Spec.PathFiles os l ps w r evs rest := by
  induction ps generalizing l w with
  | nil => exact ⟨_, _, _, .done⟩
  | cons p ps ih =>
    rcases header_cases w with rfl | ⟨r, evs, rest, h⟩ | ⟨hdr, w', mode, size, name, rfl, h1, h2⟩
    · exact ⟨_, _, _, .few⟩
    · exact ⟨_, _, _, .bad h⟩
    · obtain ⟨r, evs, rest, h⟩ := file_total os (l ++ headerReads hdr) [.createParents p, .create p] size w'
      by_cases hr : r = ok ()
      · subst hr
        obtain ⟨r, evs', rest', h'⟩ := ih (l ++ (headerReads hdr ++ evs)) rest
        exact ⟨_, _, _, .next h1 h2 h h'⟩
      · exact ⟨_, _, _, .last h1 h2 h hr⟩

/-! ### names of files -/

/-- all parts of a path -/
def parts (p : Bytes) : List Bytes := (components.go p).1 :: (components.go p).2

theorem parts_slash (q y : Bytes) : parts (q ++ 47 :: y) = parts q ++ parts y := by
  induction q with
  | nil => rfl
  | cons b t ih =>
    unfold parts at ih ⊢
    rw [List.cons_append, components.go, components.go]
    by_cases hb : b = 47
    · rw [if_pos hb, if_pos hb]
      simp only [List.cons_append, List.cons.injEq, true_and] at ih ⊢
      exact ih
    · rw [if_neg hb, if_neg hb]
      simp only [List.cons_append, List.cons.injEq] at ih ⊢
      exact ⟨⟨trivial, ih.1⟩, ih.2⟩

theorem parts_plain {x : Bytes} (h : (47 : Byte) ∉ x) : parts x = [x] := by
  induction x with
  | nil => rfl
  | cons b t ih =>
    rw [List.mem_cons, not_or] at h
    have ih := ih h.2
    unfold parts at ih ⊢
    rw [components.go, if_neg (fun e => h.1 e.symm)]
    simp only [List.cons.injEq] at ih ⊢
    exact ⟨⟨trivial, ih.1⟩, ih.2⟩

theorem parts_join (p : Bytes) : p = (parts p).headD [] ++ ((parts p).tail.map (fun c => 47 :: c)).flatten := by
  induction p with
  | nil => rfl
  | cons b t ih =>
    unfold parts at ih ⊢
    rw [components.go]
    by_cases hb : b = 47
    · rw [if_pos hb]
      simp only [List.headD_cons, List.tail_cons, List.map_cons, List.flatten_cons, List.nil_append] at ih ⊢
      rw [List.cons_append, ← ih, hb]
    · rw [if_neg hb]
      simp only [List.headD_cons, List.tail_cons] at ih ⊢
      rw [List.cons_append, ← ih]

theorem parts_trailing {x t : Bytes} (hx : (47 : Byte) ∉ x) (h : Spec.Trailing t) :
    ∃ ys, parts (x ++ t) = x :: ys ∧ ∀ y ∈ ys, y = [] ∨ y = [46] := by
  induction h generalizing x with
  | nil => rw [List.append_nil]; exact ⟨[], parts_plain hx, by simp⟩
  | @slash t _ ih =>
    obtain ⟨ys, h1, h2⟩ := ih (x := []) (by simp)
    rw [List.nil_append] at h1
    refine ⟨[] :: ys, ?_, ?_⟩
    · rw [parts_slash, parts_plain hx, h1]; rfl
    · intro y hy
      rcases List.mem_cons.mp hy with rfl | hy
      · exact .inl rfl
      · exact h2 y hy
  | @dot t _ ih =>
    obtain ⟨ys, h1, h2⟩ := ih (x := [46]) (by decide)
    refine ⟨[46] :: ys, ?_, ?_⟩
    · rw [parts_slash, parts_plain hx]
      show [x] ++ parts ([46] ++ t) = _
      rw [h1]; rfl
    · intro y hy
      rcases List.mem_cons.mp hy with rfl | hy
      · exact .inr rfl
      · exact h2 y hy

theorem trailing_of {ys : List Bytes} (h : ∀ y ∈ ys, y = [] ∨ y = [46]) :
    Spec.Trailing (ys.map (fun c => 47 :: c)).flatten := by
  induction ys with
  | nil => exact .nil
  | cons y ys ih =>
    have ih := ih fun y hy => h y (List.mem_cons_of_mem _ hy)
    rw [List.map_cons, List.flatten_cons]
    rcases h y List.mem_cons_self with rfl | rfl
    · exact .slash ih
    · exact .dot ih

theorem components_eq (p : Bytes) : components p = (parts p).filter (fun c => c ≠ [] && c ≠ [46]) := rfl

theorem filter_last {f : Bytes → Bool} {xs : List Bytes} {c : Bytes} (h : (xs.filter f).getLast? = some c) :
    ∃ a b, xs = a ++ c :: b ∧ ∀ y ∈ b, f y = false := by
  induction xs with
  | nil => cases h
  | cons x xs ih =>
    by_cases hn : xs.filter f = []
    · have hx : ∀ y ∈ xs, f y = false := by
        intro y hy
        have := List.filter_eq_nil_iff.mp hn y hy
        simpa using this
      rw [List.filter_cons, hn] at h
      split at h
      · cases h; exact ⟨[], xs, rfl, hx⟩
      · cases h
    · have h' : (xs.filter f).getLast? = some c := by
        rw [List.filter_cons] at h
        split at h
        · rw [List.getLast?_cons] at h
          rcases hl : (xs.filter f).getLast? with _ | d
          · exact absurd (List.getLast?_eq_none_iff.mp hl) hn
          · rw [hl] at h; exact h
        · exact h
      obtain ⟨a, b, rfl, hb⟩ := ih h'
      exact ⟨x :: a, b, rfl, hb⟩

theorem fileName_iff (p name : Bytes) : fileName p = ok name ↔ Spec.FileName p name := by
  constructor
  · intro h
    have hi := C56_names h
    unfold fileName at h
    split at h
    · rename_i c hc
      split at h
      · cases h
      · cases h
        rw [components_eq] at hc
        obtain ⟨a, b, e, hb⟩ := filter_last hc
        have hj := parts_join p
        rw [e] at hj
        have ht := trailing_of (ys := b) (fun y hy => by
          have := hb y hy
          by_cases h1 : y = []
          · exact .inl h1
          · by_cases h2 : y = [46]
            · exact .inr h2
            · simp [h1, h2] at this)
        cases a with
        | nil => exact ⟨[], _, hj, .inl rfl, hi, ht⟩
        | cons x a =>
          refine ⟨x ++ (a.map (fun c => 47 :: c)).flatten ++ [47], _, ?_, .inr (by simp), hi, ht⟩
          rw [hj]
          simp
    · cases h
  · rintro ⟨dir, tail, rfl, hd, ⟨h1, h2, h3, h4⟩, ht⟩
    obtain ⟨ys, e, hys⟩ := parts_trailing h4 ht
    have hf : ys.filter (fun c => c ≠ [] && c ≠ [46]) = [] := by
      rw [List.filter_eq_nil_iff]
      intro y hy
      rcases hys y hy with rfl | rfl <;> simp
    have hn : (name :: ys).filter (fun c => c ≠ [] && c ≠ [46]) = [name] := by
      rw [List.filter_cons, if_pos (by simp [h1]; exact h2), hf]
    have hl : (components (dir ++ name ++ tail)).getLast? = some name := by
      rw [components_eq]
      rcases hd with rfl | hd
      · rw [List.nil_append, e, hn]; rfl
      · obtain ⟨q, rfl⟩ := List.getLast?_eq_some_iff.mp hd
        rw [show q ++ [47] ++ name ++ tail = q ++ 47 :: (name ++ tail) by simp, parts_slash, e,
          List.filter_append, hn, List.getLast?_append]
        rfl
    unfold fileName
    rw [hl]
    simp only
    rw [if_neg h3]

theorem fileName_ne_panic (p : Bytes) : fileName p ≠ R.panic := by
  unfold fileName
  split
  · split <;> simp
  · simp

theorem op_ok {e : Ev} {s : St} (h : os.ok s.log e = true) : S.op os e s = (ok (), ⟨s.inp, s.log ++ [e]⟩) := by
  unfold S.op; rw [if_pos h]

theorem op_err {e : Ev} {s : St} (h : os.ok s.log e = false) : S.op os e s = (err .io, s) := by
  unfold S.op; rw [if_neg (by rw [h]; decide)]

theorem utf8_ok {b : Bytes} (h : Spec.Utf8 b) : (Utf8.fromUtf8 b).okOr Err.utf8 = ok b := by
  rw [fromUtf8_eq_ok.mpr ⟨h, rfl⟩]; rfl

theorem sends_run {ps : List Bytes} (h : Spec.Sends os l ps r evs) :
    send os ps ⟨w, l⟩ = (r, ⟨w, l ++ evs⟩) := by
  have name {p name : Bytes} {α : Type} (h : Spec.FileName p name) (f : Bytes → S α) (s : St) :
      (S.lift (fileName p).unwrap >>= f) s = f name s := by
    rw [(fileName_iff p name).mpr h]; rfl
  have utf {b : Bytes} {α : Type} (h : Spec.Utf8 b) (f : Bytes → S α) (s : St) :
      (S.lift ((Utf8.fromUtf8 b).okOr .utf8) >>= f) s = f b s := by
    rw [utf8_ok h]; rfl
  induction h with
  | done => rw [List.append_nil]; rfl
  | notOpened h =>
    rw [List.append_nil, send]
    exact S.bind_err (S.bind_err (op_err h))
  | @noName l p ps h1 h2 =>
    rw [send]
    refine S.bind_panic ((S.bind_ok (op_ok h1)).trans (S.bind_panic ?_))
    rcases hx : fileName p with n | e | _
    · exact absurd ((fileName_iff p n).mp hx) (h2 n)
    · rfl
    · exact absurd hx (fileName_ne_panic p)
  | notUtf8 h1 h2 h3 =>
    rw [send]
    refine S.bind_err ((S.bind_ok (op_ok h1)).trans ((name h2 _ _).trans (S.bind_err ?_)))
    rw [fromUtf8_err h3]; rfl
  | @noHeader l p ps nm h1 h2 h3 h4 =>
    rw [send]
    refine S.bind_panic ((S.bind_ok (op_ok h1)).trans ((name h2 _ _).trans ((utf h3 _ _).trans (S.bind_panic ?_))))
    have := op_err (s := ⟨w, l ++ [.openFile p]⟩) h4
    unfold Spec.sentHeader at this
    simp only [this]
  | @noContent l p ps nm h1 h2 h3 h4 h5 =>
    rw [send]
    refine S.bind_err ((S.bind_ok (op_ok h1)).trans ((name h2 _ _).trans ((utf h3 _ _).trans
      ((S.bind_ok (a := ()) (s' := ⟨w, l ++ [.openFile p, .out (Spec.sentHeader nm)]⟩) ?_).trans
        (S.bind_err (op_err h5))))))
    have := op_ok (s := ⟨w, l ++ [.openFile p]⟩) h4
    unfold Spec.sentHeader at this ⊢
    simp only [this]
    simp only [List.append_assoc]
    rfl
  | @notRead l p ps nm h1 h2 h3 h4 h5 h6 =>
    rw [send]
    refine S.bind_err ((S.bind_ok (op_ok h1)).trans ((name h2 _ _).trans ((utf h3 _ _).trans
      ((S.bind_ok (a := ()) (s' := ⟨w, l ++ [.openFile p, .out (Spec.sentHeader nm)]⟩) ?_).trans
        ((S.bind_ok (op_ok h5)).trans ?_)))))
    · have := op_ok (s := ⟨w, l ++ [.openFile p]⟩) h4
      unfold Spec.sentHeader at this ⊢
      simp only [this]
      simp only [List.append_assoc]
      rfl
    · rw [h6]
      simp only [List.append_assoc]
      rfl
  | @next l p ps nm r evs h1 h2 h3 h4 h5 h6 _ ih =>
    rw [send]
    have hs : sendFile os p ⟨w, l⟩ = (ok (), ⟨w, l ++ [.openFile p, .out (Spec.sentHeader nm),
        .out (os.content p).1]⟩) := by
      refine (S.bind_ok (op_ok h1)).trans ((name h2 _ _).trans ((utf h3 _ _).trans
        ((S.bind_ok (a := ()) (s' := ⟨w, l ++ [.openFile p, .out (Spec.sentHeader nm)]⟩) ?_).trans
          ((S.bind_ok (op_ok h5)).trans ?_))))
      · have := op_ok (s := ⟨w, l ++ [.openFile p]⟩) h4
        unfold Spec.sentHeader at this ⊢
        simp only [this]
        simp only [List.append_assoc]
        rfl
      · rw [h6]
        simp only [List.append_assoc]
        rfl
    rw [S.bind_ok hs, ih, List.append_assoc]
    rfl

theorem sends_total (os : Os) (l : List Ev) (ps : List Bytes) : ∃ r evs, Spec.Sends os l ps r evs := by
  induction ps generalizing l with
  | nil => exact ⟨_, _, .done⟩
  | cons p ps ih =>
    cases h1 : os.ok l (.openFile p) with
    | false => exact ⟨_, _, .notOpened h1⟩
    | true =>
      by_cases h2 : ∃ name, Spec.FileName p name
      · obtain ⟨name, h2⟩ := h2
        by_cases h3 : Spec.Utf8 name
        · cases h4 : os.ok (l ++ [.openFile p]) (.out (Spec.sentHeader name)) with
          | false => exact ⟨_, _, .noHeader h1 h2 h3 h4⟩
          | true =>
            cases h5 : os.ok (l ++ [.openFile p, .out (Spec.sentHeader name)]) (.out (os.content p).1) with
            | false => exact ⟨_, _, .noContent h1 h2 h3 h4 h5⟩
            | true =>
              cases h6 : (os.content p).2 with
              | false => exact ⟨_, _, .notRead h1 h2 h3 h4 h5 h6⟩
              | true =>
                obtain ⟨r, evs, h⟩ := ih (l ++ [.openFile p, .out (Spec.sentHeader name), .out (os.content p).1])
                exact ⟨_, _, .next h1 h2 h3 h4 h5 h6 h⟩
        · exact ⟨_, _, .notUtf8 h1 h2 h3⟩
      · exact ⟨_, _, .noName h1 fun name h => h2 ⟨name, h⟩⟩

/-! ### the program -/

theorem scp_run {args : List Bytes} (h : Spec.ScpRun os args l w r evs rest) :
    start os args ⟨w, l⟩ = (r, ⟨rest, l ++ evs⟩) := by
  cases h with
  | flag h1 h2 => rw [(C63_refused os args _).1 ⟨_, h1, h2⟩, List.append_nil]
  | client h1 h2 => rw [(C63_refused os args _).2 h1 h2, List.append_nil]
  | send h1 h2 h3 => rw [(C63_start os args _ h1).2 h2]; exact sends_run h3
  | noDir h1 h2 h3 h4 =>
    rw [(C63_start os args _ h1).1 h2, decide_eq_true h3, List.append_nil]
    change (pathsOf args).length ≠ 1 at h4
    show receive os (pathsOf args) true _ = _
    rcases hp : pathsOf args with _ | ⟨d, _ | ⟨d', t⟩⟩
    · rfl
    · rw [hp] at h4; exact absurd rfl h4
    · rfl
  | dirFails h1 h2 h3 h4 h5 hr =>
    rw [(C63_start os args _ h1).1 h2, decide_eq_true h3]
    show receive os (pathsOf args) true _ = _
    rw [h4]
    have h := ops_run (w := w) h5
    rw [← failed_eq hr] at h
    have := bind_scpFailed (f := fun _ => dirLoop os) h hr
    rw [opsOf_bind, opsOf_bind, opsOf_bind, opsOf_nil, failed_eq hr] at this
    exact this
  | dir h1 h2 h3 h4 h5 h6 =>
    rw [(C63_start os args _ h1).1 h2, decide_eq_true h3]
    show receive os (pathsOf args) true _ = _
    rw [h4]
    have := S.bind_ok (f := fun _ => dirLoop os) (ops_run (w := w) h5)
    rw [opsOf_bind, opsOf_bind, opsOf_bind, opsOf_nil, dir_run h6, List.append_assoc] at this
    exact this
  | pathsFail h1 h2 h3 h5 hr =>
    rw [(C63_start os args _ h1).1 h2, decide_eq_false h3]
    have h := ops_run (w := w) h5
    rw [← failed_eq hr] at h
    have := bind_scpFailed (f := fun _ => pathLoop os (pathsOf args)) h hr
    rw [opsOf_bind, opsOf_nil, failed_eq hr] at this
    exact this
  | paths h1 h2 h3 h5 h6 =>
    rw [(C63_start os args _ h1).1 h2, decide_eq_false h3]
    have := S.bind_ok (f := fun _ => pathLoop os (pathsOf args)) (ops_run (w := w) h5)
    rw [opsOf_bind, opsOf_nil, paths_run h6, List.append_assoc] at this
    exact this

theorem scp_total (os : Os) (args : List Bytes) (l : List Ev) (w : Bytes) :
    ∃ r evs rest, Spec.ScpRun os args l w r evs rest := by
  rcases parseArgs_run args .client false [] with ⟨⟨a, h1, h2⟩, -⟩ | ⟨h1, mode, -, h2⟩
  · exact ⟨_, _, _, .flag h1 h2⟩
  have h2 : LastMode args mode := by
    rcases h2 with ⟨rfl, h2⟩ | ⟨-, h2⟩ <;> exact h2
  cases mode with
  | client => exact ⟨_, _, _, .client h1 h2⟩
  | send =>
    obtain ⟨r, evs, h⟩ := sends_total os l (pathsOf args)
    exact ⟨_, _, _, .send h1 h2 h⟩
  | receive =>
    by_cases hd : b! "-d" ∈ args
    · by_cases hp : (pathsOf args).length = 1
      · obtain ⟨dir, hp⟩ := List.length_eq_one_iff.mp hp
        obtain ⟨r, evs, h⟩ := ops_total os l [.createDirAll dir, .chdir dir, .ack]
        by_cases hr : r = ok ()
        · subst hr
          obtain ⟨r, evs', rest, h'⟩ := dir_total os (l ++ evs) w
          exact ⟨_, _, _, .dir h1 h2 hd hp h h'⟩
        · exact ⟨_, _, _, .dirFails h1 h2 hd hp h hr⟩
      · exact ⟨_, _, _, .noDir h1 h2 hd hp⟩
    · obtain ⟨r, evs, h⟩ := ops_total os l [.ack]
      by_cases hr : r = ok ()
      · subst hr
        obtain ⟨r, evs', rest, h'⟩ := paths_total os (l ++ evs) (pathsOf args) w
        exact ⟨_, _, _, .paths h1 h2 hd h h'⟩
      · exact ⟨_, _, _, .pathsFail h1 h2 hd h hr⟩

/-- C106: what the program does, exactly -/
theorem C106_exact (os : Os) (args : List Bytes) (l : List Ev) (w : Bytes) (r : R Err Unit) (s' : St) :
    start os args ⟨w, l⟩ = (r, s') ↔
      ∃ evs rest, Spec.ScpRun os args l w r evs rest ∧ s' = ⟨rest, l ++ evs⟩ := by
  constructor
  · intro h
    obtain ⟨r', evs, rest, hx⟩ := scp_total os args l w
    rw [scp_run hx] at h
    cases h
    exact ⟨evs, rest, hx, rfl⟩
  · rintro ⟨evs, rest, h, rfl⟩
    exact scp_run h

/-- C106: there is one for each input -/
theorem C106_one (os : Os) (args : List Bytes) (l : List Ev) (w : Bytes) :
    ∃ r evs rest, Spec.ScpRun os args l w r evs rest ∧
      ∀ r' evs' rest', Spec.ScpRun os args l w r' evs' rest' → r' = r ∧ evs' = evs ∧ rest' = rest := by
  obtain ⟨r, evs, rest, h⟩ := scp_total os args l w
  refine ⟨r, evs, rest, h, fun r' evs' rest' h' => ?_⟩
  have := (scp_run h').symm.trans (scp_run h)
  simp only [Prod.mk.injEq, St.mk.injEq] at this
  exact ⟨this.1, List.append_cancel_left this.2.2, this.2.1⟩

/-- C106: the name of the file that is sent for a path: exactly -/
theorem C106_name (p name : Bytes) : fileName p = ok name ↔ Spec.FileName p name := fileName_iff p name

/-- C106: the first line of the input is a header, or it is not understood for one reason; the input may be
empty, too. -/
theorem C106_header (w : Bytes) (l : List Ev) :
    (w = [] ∧ readHeader ⟨w, l⟩ = (ok none, ⟨[], l⟩)) ∨
    (∃ hdr rest mode size name, w = hdr ++ rest ∧ Line hdr rest ∧ HeaderLine hdr mode size name ∧
      readHeader ⟨w, l⟩ = (ok (some (mode, size, name)), ⟨rest, l ++ headerReads hdr⟩)) ∨
    (∃ e evs rest, Spec.BadHeader w (err e) evs rest ∧ readHeader ⟨w, l⟩ = (err e, ⟨rest, l ++ evs⟩)) ∨
    (∃ evs rest, Spec.BadHeader w panic evs rest ∧ readHeader ⟨w, l⟩ = (R.panic, ⟨rest, l ++ evs⟩)) := by
  rcases header_cases w with rfl | ⟨r, evs, rest, h⟩ | ⟨hdr, rest, mode, size, name, rfl, h1, h2⟩
  · exact .inl ⟨rfl, rfl⟩
  · have hr := bad_readHeader (l := l) h
    cases r with
    | ok => exact absurd rfl (bad_ne_ok h)
    | err e => exact .inr (.inr (.inl ⟨e, evs, rest, h, hr⟩))
    | panic => exact .inr (.inr (.inr ⟨evs, rest, h, hr⟩))
  · exact .inr (.inl ⟨hdr, rest, mode, size, name, rfl, h1, h2, header_run h1 h2⟩)

/-! ### C107 -/

/-- C107: who runs the program (through `ssh`) learns from its exit status whether the files have been transferred:
it is 0 exactly if the program was successful. -/
def C107_statement : Prop :=
  ∀ os args l w, exitStatus (start os args ⟨w, l⟩).1 = 0 ↔ (start os args ⟨w, l⟩).1 = ok ()

/-- It is false: for an unknown flag there is an error, but the status is 0. -/
theorem C107_refuted : ¬ C107_statement := by
  intro h
  have := (h scpOs [b! "-x"] [] []).mp (by decide +kernel)
  revert this
  decide +kernel

/-- No error is reported by the status: every error has that of a success. -/
theorem C107_errors (os : Os) (args : List Bytes) (l : List Ev) (w : Bytes) (e : Err)
    (h : (start os args ⟨w, l⟩).1 = err e) : exitStatus (start os args ⟨w, l⟩).1 = 0 := by
  rw [h]; rfl

/-- What makes the program panic. -/
inductive Spec.ScpPanics (os : Os) (args : List Bytes) (w : Bytes) : Prop
  /-- the mode is not given -/
  | client : b! "-f" ∉ args → b! "-t" ∉ args → ScpPanics os args w
  /-- a directory is sent to it -/
  | directory {pre post} : LastMode args .receive → w = pre ++ 68 :: post → ScpPanics os args w
  /-- a path does not have a name, or the header cannot be written -/
  | noName {p} : LastMode args .send → p ∈ pathsOf args → (∀ name, ¬ FileName p name) → ScpPanics os args w
  | noHeader {p name log} : LastMode args .send → p ∈ pathsOf args → FileName p name →
    os.ok log (.out (sentHeader name)) = false → ScpPanics os args w

theorem bad_panic (h : Spec.BadHeader w R.panic evs rest) : ∃ post, w = 68 :: post := by
  cases h with
  | directory h => exact ⟨_, h⟩

theorem copied_suffix {size : Nat} (h : Spec.Copied os l size w r evs rest) :
    (∃ x, w = x ++ rest) ∧ r ≠ R.panic := by
  induction h with
  | done => exact ⟨⟨[], rfl⟩, by simp⟩
  | short => exact ⟨⟨_, (List.append_nil _).symm⟩, by simp⟩
  | fails => exact ⟨⟨_, rfl⟩, by simp⟩
  | piece _ _ _ _ ih =>
    obtain ⟨⟨x, rfl⟩, h⟩ := ih
    exact ⟨⟨_ ++ x, by rw [List.append_assoc]⟩, h⟩

theorem ops_ne_panic (h : Spec.Ops os l es r evs) : r ≠ R.panic := by
  induction h with
  | next _ _ ih => exact ih
  | _ => simp

theorem file_suffix {size : Nat} (h : Spec.FileOf os l es size w r evs rest) :
    (∃ x, w = x ++ rest) ∧ r ≠ R.panic := by
  cases h with
  | fails h => exact ⟨⟨[], rfl⟩, ops_ne_panic h⟩
  | content _ h =>
    cases h with
    | fails h => exact copied_suffix h
    | ends => exact ⟨⟨_, (List.append_nil _).symm⟩, by simp⟩
    | @other _ c _ h =>
      obtain ⟨⟨x, rfl⟩, -⟩ := copied_suffix h
      exact ⟨⟨x ++ [c], by simp⟩, by simp⟩
    | nul h h' =>
      obtain ⟨⟨x, rfl⟩, -⟩ := copied_suffix h
      exact ⟨⟨x ++ [0], by simp⟩, ops_ne_panic h'⟩

theorem dir_panic (h : Spec.DirFiles os l w r evs rest) (hr : r = R.panic) : ∃ pre post, w = pre ++ 68 :: post := by
  induction h with
  | done => cases hr
  | bad h => subst hr; obtain ⟨post, h⟩ := bad_panic h; exact ⟨[], post, h⟩
  | last _ _ h => exact absurd hr (file_suffix h).2
  | @next _ hdr _ _ _ _ _ _ _ _ _ _ _ h _ ih =>
    obtain ⟨⟨x, rfl⟩, -⟩ := file_suffix h
    obtain ⟨pre, post, rfl⟩ := ih hr
    exact ⟨hdr ++ (x ++ pre), post, by simp⟩

theorem paths_panic {ps : List Bytes} (h : Spec.PathFiles os l ps w r evs rest) (hr : r = R.panic) :
    ∃ pre post, w = pre ++ 68 :: post := by
  induction h with
  | done => cases hr
  | few => cases hr
  | bad h => subst hr; obtain ⟨post, h⟩ := bad_panic h; exact ⟨[], post, h⟩
  | last _ _ h => exact absurd hr (file_suffix h).2
  | @next _ _ _ hdr _ _ _ _ _ _ _ _ _ _ _ h _ ih =>
    obtain ⟨⟨x, rfl⟩, -⟩ := file_suffix h
    obtain ⟨pre, post, rfl⟩ := ih hr
    exact ⟨hdr ++ (x ++ pre), post, by simp⟩

theorem sends_panic {ps : List Bytes} (h : Spec.Sends os l ps r evs) (hr : r = R.panic) :
    ∃ p ∈ ps, (∀ name, ¬ Spec.FileName p name) ∨ ∃ name log, Spec.FileName p name ∧
      os.ok log (.out (Spec.sentHeader name)) = false := by
  induction h with
  | done | notOpened | notUtf8 | noContent | notRead => cases hr
  | noName _ h => exact ⟨_, List.mem_cons_self, .inl h⟩
  | noHeader _ h _ h' => exact ⟨_, List.mem_cons_self, .inr ⟨_, _, h, h'⟩⟩
  | next _ _ _ _ _ _ _ ih =>
    obtain ⟨p, h1, h2⟩ := ih hr
    exact ⟨p, List.mem_cons_of_mem _ h1, h2⟩

/-- C107, what holds of it: the status is 0 or 101; after a success it is 0; and if it is not 0, then it was not
said what to do, there is a `D` in the input, or a path without a name or one for which the header could not be
written. Missing: that it is not 0 after an error, which is false (`C107_refuted`, `C107_errors`). -/
theorem C107_status_partial (os : Os) (args : List Bytes) (l : List Ev) (w : Bytes) :
    (exitStatus (start os args ⟨w, l⟩).1 = 0 ∨ exitStatus (start os args ⟨w, l⟩).1 = 101) ∧
    ((start os args ⟨w, l⟩).1 = ok () → exitStatus (start os args ⟨w, l⟩).1 = 0) ∧
    (exitStatus (start os args ⟨w, l⟩).1 ≠ 0 → Spec.ScpPanics os args w) := by
  obtain ⟨r, evs, rest, h⟩ := scp_total os args l w
  rw [scp_run h]
  refine ⟨by cases r <;> simp [exitStatus], fun h => by rw [h]; rfl, fun hx => ?_⟩
  have hr : r = R.panic := by cases r with
    | panic => rfl
    | _ => exact absurd rfl hx
  cases h with
  | flag => cases hr
  | client _ h => exact .client h.1 h.2
  | send h1 h2 h3 =>
    obtain ⟨p, hp, h | ⟨name, log, h, h'⟩⟩ := sends_panic h3 hr
    · exact .noName h2 hp h
    · exact .noHeader h2 hp h h'
  | noDir => cases hr
  | dirFails _ _ _ _ h => exact absurd hr (ops_ne_panic h)
  | dir _ h2 _ _ _ h =>
    obtain ⟨pre, post, h⟩ := dir_panic h hr
    exact .directory h2 h
  | pathsFail _ _ _ h => exact absurd hr (ops_ne_panic h)
  | paths _ h2 _ _ h =>
    obtain ⟨pre, post, h⟩ := paths_panic h hr
    exact .directory h2 h

end

/-! ### examples -/

/-- a file of 40000 bytes is stored in two pieces, the last one of which does not fit the disk -/
def fullOs : Os where
  ok _ e := match e with
    | .write bs => decide (bs.length = 32768)
    | _ => true
  part _ := 10
  content _ := ([], true)

theorem fullOs_write (l : List Ev) (bs : Bytes) : fullOs.ok l (.write bs) = decide (bs.length = 32768) := rfl

example : Spec.ScpRun fullOs [b! "-t", b! "x/a"] []
    (scpHeader (b! "0644") (decimal 40000) (b! "b") ++ (List.replicate 32768 7 ++ (List.replicate 7232 8 ++ [0])))
    (err .io)
    ([.ack] ++ (Spec.headerReads (scpHeader (b! "0644") (decimal 40000) (b! "b")) ++
      ([.createParents (b! "x/a"), .create (b! "x/a"), .ack] ++
        [.read (List.replicate 32768 7), .write (List.replicate 32768 7), .read (List.replicate 7232 8),
         .write ((List.replicate 7232 8).take 10)]))) [0] := by
  obtain ⟨h1, h2⟩ := scpHeader_accepted (mode := b! "0644") (ds := decimal 40000) (name := b! "b")
    ⟨by decide +kernel, by decide +kernel⟩ ⟨by decide +kernel, by decide +kernel⟩ (decimal_spec 40000) (by decide)
    (Ascii.utf8 (by decide +kernel)) (Ascii.utf8 (by decide +kernel))
  refine .paths (evs := [.ack]) ?_ ⟨[], [b! "x/a"], rfl, by decide, by decide⟩ (by decide) (.next rfl .done) ?_
  · intro a ha
    rcases List.mem_cons.mp ha with rfl | ha
    · exact fun h => h.2.2 (.inr (.inr rfl))
    · obtain rfl := List.mem_singleton.mp ha
      exact fun h => absurd h.2.1 (by decide)
  · refine .last (h2 _) h1 ?_ (by simp)
    refine .content (evs := [.createParents (b! "x/a"), .create (b! "x/a"), .ack])
      (.next rfl (.next rfl (.next rfl .done))) (.fails ?_ (by simp))
    refine .piece (c := List.replicate 32768 7) (by decide) (by rw [List.length_replicate]; rfl)
      ((fullOs_write _ _).trans (decide_eq_true List.length_replicate)) ?_
    rw [List.length_replicate]
    exact .fails (c := List.replicate 7232 8) (by decide) (by rw [List.length_replicate]; rfl)
      ((fullOs_write _ _).trans (decide_eq_false (by rw [List.length_replicate]; decide)))

-- headers that are not understood
example : Spec.BadHeader (b! "C0644 12\nx") (err .missing) [.read [67], .read (b! "0644 12\n")] (b! "x") :=
  .missing rfl ⟨by decide, .inl rfl⟩ (Ascii.utf8 (by decide)) (by decide)

example : Spec.BadHeader (b! "C0644 x a\n") (err .size) [.read [67], .read (b! "0644 x a\n")] [] :=
  .size (m := b! "0644") (ds := b! "x") (more := b! "a\n") rfl ⟨by decide, .inl rfl⟩ (Ascii.utf8 (by decide)) rfl
    (by decide) (by decide) fun n _ => ⟨fun h => absurd (h.2.1 120 List.mem_cons_self) (by decide),
      fun t h => absurd h (by simp)⟩

-- the name of the file at a path
example : Spec.FileName (b! "/srv//a/./") (b! "a") :=
  ⟨b! "/srv//", b! "/./", rfl, .inr rfl, ⟨by decide, by decide, by decide, by decide⟩, .dot (.slash .nil)⟩

-- nothing is stored, and the status is 0
example : exitStatus (start fullOs [b! "-t", b! "a"] ⟨[], []⟩).1 = 0 :=
  C107_errors fullOs _ _ _ .file rfl

end Nora
