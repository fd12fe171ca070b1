import Verif.Props.Dialog
import Verif.Props.ScpExact
import Verif.Props.SshdSession
/-
C109: a file is copied. The example server, the program `scp` that it has started, and a client that sends a file
over its connection, together.
-/
namespace Nora
open R Server

/-! ### a session and a program -/

namespace Spec

/-- the bytes given to the process `n` -/
def procGiven (n : Nat) (t : List Event) : Bytes :=
  t.flatMap fun e => match e with
    | .proc (.stdin m d) => if m = n then d else []
    | _ => []

/-- the bytes taken from its standard output -/
def procTaken (n : Nat) (t : List Event) : Bytes :=
  t.flatMap fun e => match e with
    | .proc (.stdout m d) => if m = n then d else []
    | _ => []

/-- the input that a program has read -/
def scpInput (evs : List Scp.Ev) : Bytes :=
  evs.flatMap fun e => match e with
    | .read d => d
    | _ => []

/-- A session and a program run at the same time, and the program is the process `n` of the session: `t` and `evs`
are what has happened until now. A program reads what it was given before, and what is taken from its output it
has written before. When its output has ended, and when it has exited, it has done `all`, and then its exit status
is `status`. -/
inductive Joint (n : Nat) (all : List Scp.Ev) (status : UInt32) : List Event → List Scp.Ev → Prop
  | nil : Joint n all status [] []
  | session {t evs e} : Joint n all status t evs →
    (∀ d, e = .proc (.stdout n d) → procTaken n t ++ d <+: output evs) →
    (e = .proc (.stdout n []) → evs = all ∧ procTaken n t = output evs) →
    (∀ x, e = .proc (.exited n x) → evs = all ∧ x = status) →
    Joint n all status (t ++ [e]) evs
  | program {t evs e} : Joint n all status t evs → (∃ i o x, .proc (.started n i o x) ∈ t) →
    (∀ d, e = .read d → scpInput evs ++ d <+: procGiven n t) → Joint n all status t (evs ++ [e])

end Spec

section
variable {n : Nat} {all evs es : List Scp.Ev} {status : UInt32} {t b : List Event}

theorem procGiven_append (n : Nat) (t b : List Event) : Spec.procGiven n (t ++ b) = Spec.procGiven n t ++ Spec.procGiven n b :=
  List.flatMap_append

theorem procTaken_append (n : Nat) (t b : List Event) : Spec.procTaken n (t ++ b) = Spec.procTaken n t ++ Spec.procTaken n b :=
  List.flatMap_append

theorem scpInput_append (a b : List Scp.Ev) : Spec.scpInput (a ++ b) = Spec.scpInput a ++ Spec.scpInput b :=
  List.flatMap_append

/-- what is read has been given, what is taken has been written -/
theorem Spec.Joint.prefixes (h : Spec.Joint n all status t evs) :
    Spec.scpInput evs <+: Spec.procGiven n t ∧ Spec.procTaken n t <+: Spec.output evs := by
  induction h with
  | nil => exact ⟨List.prefix_rfl, List.prefix_rfl⟩
  | @session t evs e _ h1 h2 h3 ih =>
    refine ⟨?_, ?_⟩
    · rw [procGiven_append]
      exact ih.1.trans (List.prefix_append _ _)
    · rw [procTaken_append]
      by_cases hx : ∃ d, e = .proc (.stdout n d)
      · obtain ⟨d, rfl⟩ := hx
        have := h1 d rfl
        simpa [Spec.procTaken] using this
      · have : Spec.procTaken n [e] = [] := by
          unfold Spec.procTaken
          rw [List.flatMap_cons, List.flatMap_nil, List.append_nil]
          split
          · rename_i m d
            split
            · rename_i hm
              subst hm
              exact absurd ⟨d, rfl⟩ hx
            · rfl
          · rfl
        rw [this, List.append_nil]
        exact ih.2
  | @program t evs e _ h1 h2 ih =>
    refine ⟨?_, ?_⟩
    · rw [scpInput_append]
      cases e with
      | read d =>
        have := h2 d rfl
        simpa [Spec.scpInput] using this
      | _ => simpa [Spec.scpInput] using ih.1
    · rw [output_append]
      exact ih.2.trans (List.prefix_append _ _)

/-- events of the session that are not output of the process -/
theorem Spec.Joint.quiet (h : Spec.Joint n all status t evs)
    (hb : ∀ e ∈ b, (∀ d, e ≠ .proc (.stdout n d)) ∧ ∀ x, e ≠ .proc (.exited n x)) :
    Spec.Joint n all status (t ++ b) evs := by
  induction b generalizing t with
  | nil => rw [List.append_nil]; exact h
  | cons e b ih =>
    rw [show t ++ e :: b = t ++ [e] ++ b by simp]
    have he := hb e List.mem_cons_self
    exact ih (.session h (fun d hd => absurd hd (he.1 d)) (fun hd => absurd hd (he.1 [])) (fun x hx => absurd hx (he.2 x)))
      fun e' he' => hb e' (List.mem_cons_of_mem _ he')

/-- the program goes on with what it has been given -/
theorem Spec.Joint.goes (h : Spec.Joint n all status t evs) (hs : ∃ i o x, .proc (.started n i o x) ∈ t)
    (he : Spec.scpInput (evs ++ es) <+: Spec.procGiven n t) : Spec.Joint n all status t (evs ++ es) := by
  induction es generalizing evs with
  | nil => rw [List.append_nil]; exact h
  | cons e es ih =>
    rw [show evs ++ e :: es = evs ++ [e] ++ es by simp] at he ⊢
    refine ih (.program h hs fun d hd => ?_) he
    subst hd
    rw [scpInput_append, scpInput_append] at he
    refine List.IsPrefix.trans ?_ he
    simp [Spec.scpInput]

/-- a piece of its output is sent -/
theorem Spec.Joint.writes {peer : UInt32} {d : Bytes} (h : Spec.Joint n all status t evs) (hd : d ≠ [])
    (hp : Spec.procTaken n t ++ d <+: Spec.output evs) :
    Spec.Joint n all status (t ++ Spec.turnBlock n peer (.writes false d)) evs := by
  rw [show t ++ Spec.turnBlock n peer (.writes false d) =
    t ++ [.proc (.stdout n d)] ++ [.sent (Spec.encode (Spec.dataMsg peer d))] by simp [Spec.turnBlock]]
  refine Spec.Joint.quiet (.session h (fun d' hd' => ?_) (fun he => ?_) (fun x hx => by cases hx)) (by simp)
  · cases hd'; exact hp
  · injection he with he; injection he with _ he; exact absurd he hd

/-- data is given to it -/
theorem Spec.Joint.gives {peer : UInt32} {xs : List (Bytes × Bytes)} (h : Spec.Joint n all status t evs) :
    Spec.Joint n all status (t ++ (xs.map fun x => Spec.Turn.gives x.1 x.2).flatMap (Spec.turnBlock n peer)) evs := by
  refine h.quiet fun e he => ?_
  obtain ⟨x, hx, he⟩ := List.mem_flatMap.mp he
  obtain ⟨y, -, rfl⟩ := List.mem_map.mp hx
  simp only [Spec.turnBlock, List.mem_cons, List.not_mem_nil, or_false] at he
  rcases he with rfl | rfl <;> simp

theorem given_gives (n : Nat) (peer : UInt32) (xs : List (Bytes × Bytes)) :
    Spec.procGiven n ((xs.map fun x => Spec.Turn.gives x.1 x.2).flatMap (Spec.turnBlock n peer)) =
      (xs.map (·.2)).flatten := by
  induction xs with
  | nil => rfl
  | cons x xs ih =>
    rw [List.map_cons, List.flatMap_cons, procGiven_append, ih]
    simp [Spec.procGiven, Spec.turnBlock]

theorem taken_gives (n : Nat) (peer : UInt32) (xs : List (Bytes × Bytes)) :
    Spec.procTaken n ((xs.map fun x => Spec.Turn.gives x.1 x.2).flatMap (Spec.turnBlock n peer)) = [] := by
  induction xs with
  | nil => rfl
  | cons x xs ih =>
    rw [List.map_cons, List.flatMap_cons, procTaken_append, ih]
    rfl

end

/-! ### what scp does with a file -/

section
open Scp Spec
variable {os : Os} {l evs : List Ev} {w rest : Bytes} {r : R Err Unit}

/-- the content is read and written, and nothing else is done -/
theorem copied_content {size : Nat} (h : Copied os l size w r evs rest) (hr : r = ok ()) :
    w = scpInput evs ++ rest ∧ (scpInput evs).length = size ∧ output evs = [] ∧
      ∀ pos acks p c, evs.foldl Scan.step ⟨pos, acks, [(p, c)]⟩ =
        ⟨pos + (scpInput evs).length, acks, [(p, c ++ scpInput evs)]⟩ := by
  induction h with
  | done => exact ⟨rfl, rfl, rfl, fun pos acks p c => by simp [scpInput]⟩
  | short => cases hr
  | fails => cases hr
  | @piece l size c w r evs rest h1 h2 h3 h4 ih =>
    obtain ⟨g1, g2, g3, g4⟩ := ih hr
    have e : scpInput (.read c :: .write c :: evs) = c ++ scpInput evs := by simp [scpInput]
    refine ⟨by rw [e, List.append_assoc, ← g1], ?_, ?_, fun pos acks p c' => ?_⟩
    · rw [e, List.length_append, g2]; omega
    · simpa [output] using g3
    · rw [List.foldl_cons, List.foldl_cons]
      show List.foldl Scan.step ⟨pos + c.length, acks, growLast c [(p, c')]⟩ evs = _
      rw [show growLast c [(p, c')] = [(p, c' ++ c)] from rfl, g4, e, List.length_append, List.append_assoc,
        Nat.add_assoc]

/-- if nothing fails, it is copied -/
theorem copied_works (hos : Works os) {size : Nat} (h : Copied os l size w r evs rest) (hw : size ≤ w.length) :
    r = ok () := by
  induction h with
  | done => rfl
  | short h => omega
  | fails _ _ h => rw [hos] at h; cases h
  | piece _ h2 _ _ ih =>
    rw [List.length_append] at hw
    exact ih (by omega)

theorem ops_works (hos : Works os) (l es : List Ev) : Ops os l es (ok ()) es := by
  induction es generalizing l with
  | nil => exact .done
  | cons e es ih => exact .next (hos _ _) (ih _)

/-- the arguments `-t` and a path -/
theorem receive_args {path : Bytes} (hp : path.head? ≠ some 45) :
    (∀ a ∈ [b! "-t", path], ¬ UnknownFlag a) ∧ LastMode [b! "-t", path] .receive ∧
      b! "-d" ∉ [b! "-t", path] ∧ pathsOf [b! "-t", path] = [path] := by
  have hne : ∀ x : Bytes, x.head? = some 45 → x ≠ path := fun x hx h => hp (by rw [← h]; exact hx)
  have hf : ¬ Flag path := by
    intro h
    unfold Flag at h
    rcases h with h | h | h <;> exact hne _ (by decide) h.symm
  refine ⟨?_, ?_, ?_, ?_⟩
  · intro a ha
    simp only [List.mem_cons, List.not_mem_nil, or_false] at ha
    rcases ha with rfl | rfl
    · rintro ⟨-, -, h⟩
      exact h (by unfold Flag; simp)
    · exact fun h => hp h.2.1
  · exact ⟨[], [path], rfl, by simpa using hne (b! "-f") rfl, by simpa using hne (b! "-t") rfl⟩
  · intro h
    simp only [List.mem_cons, List.not_mem_nil, or_false] at h
    rcases h with h | h
    · revert h; decide
    · exact hne _ rfl h
  · unfold pathsOf
    rw [List.filter_cons_of_neg (by simp [Flag]), List.filter_cons_of_pos (by simpa using hf)]
    rfl

/-- everything `scp -t path` does to receive a file with the header `hdr`, where `cs` is how it copies the content -/
def copyEvs (path hdr : Bytes) (cs : List Ev) : List Ev :=
  [.ack] ++ (headerReads hdr ++ [.createParents path, .create path, .ack]) ++ (cs ++ [.read [0], .ack])

theorem scan_copyEvs {path hdr : Bytes} {cs : List Ev}
    (h : ∀ pos acks p c, cs.foldl Scan.step ⟨pos, acks, [(p, c)]⟩ =
      ⟨pos + (scpInput cs).length, acks, [(p, c ++ scpInput cs)]⟩) :
    (scan (copyEvs path hdr cs)).files = [(path, scpInput cs)] := by
  have : scan (copyEvs path hdr cs) = (cs ++ [Ev.read [0], Ev.ack]).foldl Scan.step
      ⟨0 + (hdr.take 1).length + (hdr.drop 1).length, [0, 0 + (hdr.take 1).length + (hdr.drop 1).length], [(path, [])]⟩ := by
    unfold scan copyEvs
    rw [List.foldl_append]
    rfl
  rw [this, List.foldl_append, h]
  rfl

theorem scp_copies (hos : Works os) {path hdr mode name content : Bytes} (hp : path.head? ≠ some 45)
    (hl : Line hdr (content ++ [0])) (hh : HeaderLine hdr mode content.length name) :
    ∃ cs, start os [b! "-t", path] ⟨hdr ++ (content ++ [0]), []⟩ = (ok (), ⟨[], copyEvs path hdr cs⟩) ∧
      scpInput cs = content ∧ output cs = [] ∧ (scan (copyEvs path hdr cs)).files = [(path, content)] := by
  obtain ⟨a1, a2, a3, a4⟩ := receive_args hp
  obtain ⟨r, cs, rest, hc⟩ := copied_total os
    ([] ++ [.ack] ++ headerReads hdr ++ [.createParents path, .create path, .ack]) content.length (content ++ [0])
  obtain rfl := copied_works hos hc (by simp)
  obtain ⟨g1, g2, g3, g4⟩ := copied_content hc rfl
  obtain ⟨rfl, rfl⟩ := List.append_inj g1 g2.symm
  refine ⟨cs, ?_, rfl, g3, ?_⟩
  · have hf : FileOf os ([] ++ [.ack] ++ headerReads hdr) [.createParents path, .create path]
        (scpInput cs).length (scpInput cs ++ [0]) (ok ())
        ([.createParents path, .create path, .ack] ++ (cs ++ .read [0] :: [.ack])) [] :=
      .content (ops_works hos _ _) (.nul hc (ops_works hos _ _))
    have hrun : ScpRun os [b! "-t", path] [] (hdr ++ (scpInput cs ++ [0])) (ok ())
        ([.ack] ++ (headerReads hdr ++ ([.createParents path, .create path, .ack] ++ (cs ++ .read [0] :: [.ack])) ++ []))
        [] := by
      refine .paths a1 a2 a3 (ops_works hos _ _) ?_
      rw [a4]
      exact .next hl hh hf .done
    refine (C106_exact _ _ _ _ _ _).mpr ⟨_, _, hrun, ?_⟩
    simp [copyEvs]
  · exact scan_copyEvs g4

/-! ### how many acknowledgements there are -/

theorem ops_prefix {es : List Ev} (h : Ops os l es r evs) : evs <+: es ∧ (r = ok () → evs = es) := by
  induction h with
  | done => exact ⟨List.prefix_rfl, fun _ => rfl⟩
  | fails => exact ⟨List.nil_prefix, fun h => by cases h⟩
  | next _ _ ih => exact ⟨List.prefix_cons_inj _ |>.mpr ih.1, fun h => by rw [ih.2 h]⟩

theorem output_prefix {a b : List Ev} (h : a <+: b) : (output a).length ≤ (output b).length := by
  obtain ⟨c, rfl⟩ := h
  rw [output_append, List.length_append]
  omega

theorem output_copied {size : Nat} (h : Copied os l size w r evs rest) : output evs = [] := by
  induction h with
  | done => rfl
  | short => rfl
  | fails => rfl
  | piece _ _ _ _ ih => simpa [output] using ih

theorem output_bad (h : BadHeader w r evs rest) : output evs = [] := by
  cases h <;> rfl

/-- the content is acknowledged only if it and the byte 0 have arrived -/
theorem output_stored {size : Nat} (h : Stored os l size w r evs rest) (ho : 1 ≤ (output evs).length) :
    ∃ cs more, w = scpInput cs ++ 0 :: more ∧ (scpInput cs).length = size ∧ evs = cs ++ [.read [0], .ack] ∧ r = ok () ∧
      output cs = [] ∧ ∀ pos acks p c, cs.foldl Scan.step ⟨pos, acks, [(p, c)]⟩ =
        ⟨pos + (scpInput cs).length, acks, [(p, c ++ scpInput cs)]⟩ := by
  cases h with
  | fails h => rw [output_copied h] at ho; simp at ho
  | ends h => rw [output_append, output_copied h] at ho; simp [output] at ho
  | other h => rw [output_append, output_copied h] at ho; simp [output] at ho
  | nul h h' =>
    obtain ⟨g1, g2, g3, g4⟩ := copied_content h rfl
    cases h' with
    | fails => rw [output_append, output_copied h] at ho; simp [output] at ho
    | next _ h' =>
      cases h'
      exact ⟨_, _, g1, g2, rfl, rfl, g3, g4⟩

theorem scp_acks {path : Bytes} {s' : St} (hp : path.head? ≠ some 45)
    (h : start os [b! "-t", path] ⟨w, []⟩ = (r, s')) (ho : 3 ≤ (output s'.log).length) :
    r = ok () ∧ ∃ hdr mode name cs more, w = hdr ++ (scpInput cs ++ 0 :: more) ∧
      Line hdr (scpInput cs ++ 0 :: more) ∧ HeaderLine hdr mode (scpInput cs).length name ∧
      s'.log = copyEvs path hdr cs ∧ output cs = [] ∧ (scan s'.log).files = [(path, scpInput cs)] := by
  obtain ⟨a1, a2, a3, a4⟩ := receive_args hp
  obtain ⟨evs, rest, hrun, rfl⟩ := (C106_exact _ _ _ _ _ _).mp h
  rw [List.nil_append] at ho
  simp only [List.nil_append]
  have one : ∀ {l r evs}, Ops os l [.ack] r evs → (output evs).length ≤ 1 := fun h => output_prefix (ops_prefix h).1
  have file : ∀ {l hdr mode name size w r evs rest}, Line hdr w → HeaderLine hdr mode size name →
      FileOf os l [.createParents path, .create path] size w r evs rest → 2 ≤ (output evs).length →
      r = ok () ∧ ∃ cs more, w = scpInput cs ++ 0 :: more ∧ (scpInput cs).length = size ∧
        evs = [.createParents path, .create path, .ack] ++ (cs ++ [.read [0], .ack]) ∧ output cs = [] ∧
        ∀ pos acks p c, cs.foldl Scan.step ⟨pos, acks, [(p, c)]⟩ =
          ⟨pos + (scpInput cs).length, acks, [(p, c ++ scpInput cs)]⟩ := by
    intro l hdr mode name size w r evs rest h1 h2 h3 h4
    cases h3 with
    | fails h =>
      have := output_prefix (ops_prefix h).1
      simp [output] at this h4
      omega
    | content h h' =>
      rw [(ops_prefix h).2 rfl] at h4 ⊢
      rw [output_append, List.length_append] at h4
      obtain ⟨cs, more, g1, g2, g3, g4, g5, g6⟩ := output_stored h' (by
        have : (output ([.createParents path, .create path] ++ [Ev.ack])).length = 1 := rfl
        omega)
      exact ⟨g4, cs, more, g1, g2, by rw [g3]; rfl, g5, g6⟩
  clear h
  cases hrun with
  | flag h1 h2 => exact absurd h2 (a1 _ h1)
  | client _ h => exact absurd List.mem_cons_self h.2
  | send _ h =>
    obtain ⟨xs, ys, h, -⟩ := h
    have : b! "-f" ∈ [b! "-t", path] := by rw [h]; simp
    rcases List.mem_cons.mp this with h | h
    · exact absurd h (by decide)
    · exact absurd (by rw [← List.mem_singleton.mp h]; rfl) hp
  | noDir _ _ h => exact absurd h a3
  | dirFails _ _ h => exact absurd h a3
  | dir _ _ h => exact absurd h a3
  | pathsFail _ _ _ h => exact absurd ho (by have := one h; simp only; omega)
  | paths h1 h2 h3 h4 h5 =>
    obtain rfl := (ops_prefix h4).2 rfl
    rw [output_append, List.length_append] at ho
    have h1' : (output [Ev.ack]).length = 1 := rfl
    rw [a4] at h5
    cases h5 with
    | few => simp [output] at ho
    | bad h => rw [output_bad h] at ho; simp [output] at ho
    | last g1 g2 g3 g4 =>
      rw [output_append, List.length_append] at ho
      exact absurd (file g1 g2 g3 (by simp [output, headerReads] at ho ⊢; omega)).1 g4
    | @next _ _ _ hdr _ mode _ name _ _ _ _ _ g1 g2 g3 g4 =>
      cases g4
      rw [List.append_nil, output_append, List.length_append] at ho
      obtain ⟨e1, cs, more, e2, e3, e4, e5, e6⟩ := file g1 g2 g3 (by simp [output, headerReads] at ho ⊢; omega)
      subst e2 e3 e4
      have hlog : ([Ev.ack] ++ (headerReads hdr ++ ([.createParents path, .create path, .ack] ++
          (cs ++ [.read [0], .ack])) ++ [])) = copyEvs path hdr cs := by simp [copyEvs]
      refine ⟨rfl, _, _, _, cs, more, rfl, g1, g2, hlog, e5, ?_⟩
      rw [hlog]
      exact scan_copyEvs e6

end

/-! ### the copy -/

namespace Spec

/-- What happens in a copy: `hdrs` and `body` are the packets of the client with the header and the content, and
the data in them. -/
def copyTurns (hdrs body : List (Bytes × Bytes)) : List Turn :=
  [.writes false [0]] ++ hdrs.map (fun x => .gives x.1 x.2) ++ [.writes false [0]] ++
  body.map (fun x => .gives x.1 x.2) ++ [.writes false [0]]

end Spec

theorem packets_copy (hdrs body : List (Bytes × Bytes)) :
    Spec.turnPackets (Spec.copyTurns hdrs body) = (hdrs ++ body).map (·.1) := by
  have key : ∀ xs : List (Bytes × Bytes),
      Spec.turnPackets (xs.map fun x => Spec.Turn.gives x.1 x.2) = xs.map (·.1) := by
    intro xs
    unfold Spec.turnPackets
    rw [List.filterMap_map]
    simp [Function.comp_def]
  have h1 : ∀ xs ys, Spec.turnPackets (xs ++ ys) = Spec.turnPackets xs ++ Spec.turnPackets ys :=
    fun xs ys => List.filterMap_append
  unfold Spec.copyTurns
  rw [h1, h1, h1, h1, key, key]
  simp [Spec.turnPackets]

theorem outputs_copy (hdrs body : List (Bytes × Bytes)) :
    Spec.turnOutputs (Spec.copyTurns hdrs body) = [[0], [0], [0]] := by
  have key : ∀ xs : List (Bytes × Bytes),
      Spec.turnOutputs (xs.map fun x => Spec.Turn.gives x.1 x.2) = [] := by
    intro xs
    unfold Spec.turnOutputs
    rw [List.filterMap_map]
    simp [Function.comp_def]
  have h1 : ∀ xs ys, Spec.turnOutputs (xs ++ ys) = Spec.turnOutputs xs ++ Spec.turnOutputs ys :=
    fun xs ys => List.filterMap_append
  unfold Spec.copyTurns
  rw [h1, h1, h1, h1, key, key]
  rfl

/-- session and program fit together -/
theorem joint_copy {path hdr content : Bytes} {cs : List Scp.Ev} {hdrs body : List (Bytes × Bytes)}
    (hi : Spec.scpInput cs = content) (ho : Spec.output cs = [])
    (h1 : (hdrs.map (·.2)).flatten = hdr) (h2 : (body.map (·.2)).flatten = content ++ [0])
    (id : UInt32) (p1 p2 : Bytes) (o : Chan.Open) (r : Chan.Request) (ty : SpawnType) (io : IoSet) (n : Nat) :
    Spec.Joint n (copyEvs path hdr cs) 0
      (Spec.dialogLog id n p1 p2 o r ty io (Spec.copyTurns hdrs body) 0) (copyEvs path hdr cs) := by
  have hst : .proc (.started n io.stdin io.stdout io.stderr) ∈ Spec.startLog id n p1 p2 o r ty io := by
    simp [Spec.startLog]
  have hgs : Spec.procGiven n (Spec.startLog id n p1 p2 o r ty io) = [] ∧
      Spec.procTaken n (Spec.startLog id n p1 p2 o r ty io) = [] := by
    unfold Spec.startLog Spec.replyIf
    cases r.wantReply <;> exact ⟨rfl, rfl⟩
  unfold Spec.dialogLog Spec.copyTurns
  simp only [List.flatMap_append, List.flatMap_cons, List.flatMap_nil, List.append_nil]
  generalize o.senderChannel = peer
  have j0 : Spec.Joint n (copyEvs path hdr cs) 0 (Spec.startLog id n p1 p2 o r ty io) [] := by
    have := Spec.Joint.quiet (b := Spec.startLog id n p1 p2 o r ty io)
      (Spec.Joint.nil (n := n) (all := copyEvs path hdr cs) (status := 0)) (by
        intro e he
        unfold Spec.startLog Spec.replyIf at he
        simp only [List.cons_append, List.nil_append, List.mem_cons] at he
        rcases he with rfl | rfl | rfl | rfl | rfl | he
        · simp
        · simp
        · simp
        · simp
        · simp
        · split at he
          · rw [List.mem_singleton.mp he]; simp
          · cases he)
    rwa [List.nil_append] at this
  generalize hT0 : Spec.startLog id n p1 p2 o r ty io = T0 at *
  -- the first acknowledgement
  have j1 : Spec.Joint n (copyEvs path hdr cs) 0 T0 ([] ++ [.ack]) :=
    j0.goes ⟨_, _, _, hst⟩ (by simp [Spec.scpInput])
  have j2 := j1.writes (peer := peer) (d := [0]) (by simp) (by rw [hgs.2]; exact List.prefix_rfl)
  generalize hT1 : T0 ++ Spec.turnBlock n peer (.writes false [0]) = T1 at *
  have e1 : Spec.procGiven n T1 = [] ∧ Spec.procTaken n T1 = [0] := by
    rw [← hT1, procGiven_append, procTaken_append, hgs.1, hgs.2]
    simp [Spec.turnBlock, Spec.procGiven, Spec.procTaken]
  have s1 : .proc (.started n io.stdin io.stdout io.stderr) ∈ T1 := by
    rw [← hT1]; exact List.mem_append_left _ hst
  -- the header
  have j3 := j2.gives (peer := peer) (xs := hdrs)
  generalize hT2 : T1 ++ (hdrs.map fun x => Spec.Turn.gives x.1 x.2).flatMap (Spec.turnBlock n peer) = T2 at *
  have e2 : Spec.procGiven n T2 = hdr ∧ Spec.procTaken n T2 = [0] := by
    rw [← hT2, procGiven_append, procTaken_append, e1.1, e1.2, given_gives, taken_gives, h1]
    exact ⟨rfl, rfl⟩
  have s2 : .proc (.started n io.stdin io.stdout io.stderr) ∈ T2 := by
    rw [← hT2]; exact List.mem_append_left _ s1
  have j4 : Spec.Joint n (copyEvs path hdr cs) 0 T2
      ([] ++ [.ack] ++ (Spec.headerReads hdr ++ [.createParents path, .create path, .ack])) :=
    j3.goes ⟨_, _, _, s2⟩ (by
      rw [e2.1]
      simp only [Spec.scpInput, Spec.headerReads, List.flatMap_cons, List.flatMap_nil,
        List.nil_append, List.append_nil, List.cons_append, List.take_append_drop]
      exact List.prefix_rfl)
  have j5 := j4.writes (peer := peer) (d := [0]) (by simp) (by
    rw [e2.2]
    exact List.prefix_rfl)
  generalize hT3 : T2 ++ Spec.turnBlock n peer (.writes false [0]) = T3 at *
  have e3 : Spec.procGiven n T3 = hdr ∧ Spec.procTaken n T3 = [0, 0] := by
    rw [← hT3, procGiven_append, procTaken_append, e2.1, e2.2]
    simp [Spec.turnBlock, Spec.procGiven, Spec.procTaken]
  have s3 : .proc (.started n io.stdin io.stdout io.stderr) ∈ T3 := by
    rw [← hT3]; exact List.mem_append_left _ s2
  -- the content
  have j6 := j5.gives (peer := peer) (xs := body)
  generalize hT4 : T3 ++ (body.map fun x => Spec.Turn.gives x.1 x.2).flatMap (Spec.turnBlock n peer) = T4 at *
  have e4 : Spec.procGiven n T4 = hdr ++ (content ++ [0]) ∧ Spec.procTaken n T4 = [0, 0] := by
    rw [← hT4, procGiven_append, procTaken_append, e3.1, e3.2, given_gives, taken_gives, h2]
    exact ⟨rfl, rfl⟩
  have s4 : .proc (.started n io.stdin io.stdout io.stderr) ∈ T4 := by
    rw [← hT4]; exact List.mem_append_left _ s3
  have hout : Spec.output (copyEvs path hdr cs) = [0, 0, 0] := by
    unfold copyEvs
    rw [output_append, output_append cs, ho]
    rfl
  have j7 : Spec.Joint n (copyEvs path hdr cs) 0 T4 (copyEvs path hdr cs) :=
    j6.goes (es := cs ++ [.read [0], .ack]) ⟨_, _, _, s4⟩ (by
      rw [e4.1, scpInput_append, scpInput_append cs, hi]
      simp only [Spec.scpInput, Spec.headerReads, List.flatMap_cons, List.flatMap_nil,
        List.nil_append, List.append_nil, List.cons_append, List.take_append_drop]
      exact List.prefix_rfl)
  have j8 := j7.writes (peer := peer) (d := [0]) (by simp) (by
    rw [e4.2, hout]
    exact List.prefix_rfl)
  generalize hT5 : T4 ++ Spec.turnBlock n peer (.writes false [0]) = T5 at *
  have e5 : Spec.procTaken n T5 = [0, 0, 0] := by
    rw [← hT5, procTaken_append, e4.2]
    simp [Spec.turnBlock, Spec.procTaken]
  -- the end
  rw [show T0 ++ (Spec.turnBlock n peer (.writes false [0]) ++
      (hdrs.map fun x => Spec.Turn.gives x.1 x.2).flatMap (Spec.turnBlock n peer) ++
      Spec.turnBlock n peer (.writes false [0]) ++
      (body.map fun x => Spec.Turn.gives x.1 x.2).flatMap (Spec.turnBlock n peer) ++
      Spec.turnBlock n peer (.writes false [0])) = T5 by
    rw [← hT5, ← hT4, ← hT3, ← hT2, ← hT1]; simp only [List.append_assoc]]
  rw [show T5 ++ Spec.endLog n peer 0 = T5 ++ [.proc (.stdout n [])] ++
    [.sent (Spec.encode (Spec.eofMsg peer)), .sent (Spec.encode (Spec.closeMsg peer))] ++ [.proc (.exited n 0)] ++
    [.sent (Spec.encode (Spec.exitMsg peer 0))] by simp [Spec.endLog]]
  refine Spec.Joint.quiet (.session (Spec.Joint.quiet (.session j8 ?_ ?_ ?_) ?_) ?_ ?_ ?_) ?_
  · intro d hd
    cases hd
    rw [e5, hout]
    exact List.prefix_rfl
  · exact fun _ => ⟨rfl, by rw [e5, hout]⟩
  · intro x hx; cases hx
  · simp
  · intro d hd; cases hd
  · intro hd; cases hd
  · intro x hx
    cases hx
    exact ⟨rfl, rfl⟩
  · simp

/-- C109: a file is copied. A client gets into the example server, opens a channel and asks for a command of three
words, a program (which is `scp`), `-t` and a path. Then it sends a header with the size of the content, and the
content and the byte 0, divided into packets in any way. The program can be started, it takes what it is given, and
the operations of `scp` succeed. Then `scp` creates one file, which has exactly this path and content, and exits
with the status 0; and there are steps of the client such that in every run of the server in which it takes these
steps (there is one), whatever the other clients do, all of this happens, so that session and program fit together:
the client has the first acknowledgement before its header arrives, the second before the content, the third after
it; and exactly these three, the end of the output and the exit status are what it decrypts. -/
theorem C109_copied {G : KeyGen} {E : Ed25519} {number : Bytes → Nat} {S : Sshd.Sys} {entropy : Nat → Byte}
    {bound : Bool} {cfg : Config} (hm : Sshd.main G E number S entropy bound = ok cfg) (s : IoSt)
    (hw : s.wcap = none) (hlen : s.inp.length + 4 < 2 ^ 64) {user n : Nat} {t0 : List Event} {k : Spec.Keys}
    {w rest : Bytes} (h : Spec.Entered cfg s.rng s.inp s.log user t0 k n w)
    {p1 p2 : Bytes} {o : Chan.Open} {r : Chan.Request} {command prog path mode ds name content : Bytes}
    {hdrs body : List (Bytes × Bytes)} (hs : Spec.Arrive cfg.K k n (p1 :: p2 :: (hdrs ++ body).map (·.1)) w rest)
    (h1 : Spec.Legal (.channel (.open o)) p1) (h2 : Spec.Legal (.channel (.request r)) p2)
    (hr : r.recipientChannel = 0) (hq : Spec.Asks r (.exec command))
    (hwords : Spec.Words command [prog, b! "-t", path]) (hpath : path.head? ≠ some 45)
    (hdata : ∀ x ∈ hdrs ++ body, Spec.Legal (.channel (.data { recipientChannel := 0, data := x.2 })) x.1)
    (hhdr : (hdrs.map (·.2)).flatten = Spec.scpHeader mode ds name)
    (hbody : (body.map (·.2)).flatten = content ++ [0])
    (hmode : Spec.Plain mode) (hname : Spec.Plain name) (hsize : Spec.Decimal ds content.length)
    (hmax : content.length < 2 ^ 64) (hmode' : Spec.Utf8 mode) (hname' : Spec.Utf8 name)
    (hstart : S.start (s.log ++ t0 ++ [.received p1, .sent (Spec.encode (Spec.confirm 0 o)), .received p2])
      [prog, b! "-t", path] = true)
    (hwrite : ∀ log d, S.write log 0 d = ok d.length) (os : Scp.Os) (hos : Spec.Works os)
    (hc : Spec.Few (t0 ++ Spec.dialogLog 0 0 p1 p2 o r (.exec command) ⟨true, true, true⟩
      (Spec.copyTurns hdrs body) 0)) :
    ∃ evs, Scp.start os [b! "-t", path] ⟨Spec.scpHeader mode ds name ++ (content ++ [0]), []⟩ = (ok (), ⟨[], evs⟩) ∧
      Scp.exitStatus (ok ()) = 0 ∧ (Spec.scan evs).files = [(path, content)] ∧
      Spec.Joint 0 evs 0
        (Spec.dialogLog 0 0 p1 p2 o r (.exec command) ⟨true, true, true⟩ (Spec.copyTurns hdrs body) 0) evs ∧
      ∃ as st s', Spec.Smooth as ∧
        s'.log = s.log ++ (t0 ++ Spec.dialogLog 0 0 p1 p2 o r (.exec command) ⟨true, true, true⟩
          (Spec.copyTurns hdrs body) 0) ∧
        (∃ hello w' k', s'.out = s.out ++ (hello ++ w') ∧
          ∀ (peer : ChaCha) (buf : Bytes) (sp : IoSt), Spec.keysOf peer = k' → peer.counter = 3 →
            35000 ≤ buf.length → sp.inp = w' →
            ∃ count, delivered cfg.K count peer buf sp = Spec.sentPayloads t0 ++
              ([Spec.confirm 0 o] ++ (if r.wantReply then [Spec.success o.senderChannel] else []) ++
                [Spec.dataMsg o.senderChannel [0], Spec.dataMsg o.senderChannel [0],
                 Spec.dataMsg o.senderChannel [0], Spec.eofMsg o.senderChannel,
                 Spec.closeMsg o.senderChannel, Spec.exitMsg o.senderChannel 0]).map Spec.encode) ∧
        (∃ ops, (run cfg ops).running = true ∧ Spec.own 0 ops = some (s, as)) ∧
        ∀ ops i, (run cfg ops).running = true → Spec.own i ops = some (s, as) →
          (run cfg ops).conns[i]? = some ⟨.session user st, s'⟩ := by
  have hid := main_fits hm
  have hC : cfg.C = Sshd.connHandlers S := by rw [main_ok hm]
  obtain ⟨g1, g2⟩ := scpHeader_accepted hmode hname hsize hmax hmode' hname'
  obtain ⟨cs, f1, f2, f3, f4⟩ := scp_copies hos hpath (g2 _) g1
  refine ⟨_, f1, rfl, f4, joint_copy f2 f3 hhdr hbody _ _ _ _ _ _ _ _, ?_⟩
  obtain ⟨as, st, s', e1, e2, ⟨hello, w', k', e3, -, e4⟩, e5, e6⟩ := C108_server cfg s user t0 k n w rest hid hw hlen h
    (p1 := p1) (p2 := p2) (o := o) (r := r) (q := .exec command) (ty := .exec command) (io := ⟨true, true, true⟩)
    (turns := Spec.copyTurns hdrs body) (status := 0)
    (by rw [packets_copy]; exact hs) h1 h2 hr hq rfl
    (by
      rw [hC]
      exact ((C105_spawn S _ user (.exec command) _ rfl).1 _).mpr ⟨rfl, _, .exec hwords (by simp), hstart⟩)
    rfl
    (by
      intro x hx
      simp only [Spec.copyTurns, List.mem_append, List.mem_cons, List.not_mem_nil, or_false, List.mem_map] at hx
      rcases hx with (((rfl | ⟨y, hy, rfl⟩) | rfl) | ⟨y, hy, rfl⟩) | rfl
      · exact ⟨by simp, by simp, by simp⟩
      · exact ⟨hdata y (List.mem_append_left _ hy), rfl⟩
      · exact ⟨by simp, by simp, by simp⟩
      · exact ⟨hdata y (List.mem_append_right _ hy), rfl⟩
      · exact ⟨by simp, by simp, by simp⟩)
    (fun log d => ⟨d.length, by rw [hC]; exact hwrite log d, Nat.le_refl _⟩) hc
  refine ⟨as, st, s', e1, e2, ⟨hello, w', k', e3, fun peer buf sp x1 x2 x3 x4 =>
    ⟨(Spec.sentPayloads t0).length + (Spec.dialogReplies 0 o r (Spec.copyTurns hdrs body) 0).length, ?_⟩⟩, e5, e6⟩
  rw [e4 peer buf sp x1 x2 x3 x4]
  unfold Spec.dialogReplies
  rw [outputs_copy]
  simp

/-- C109: what is acknowledged is stored. Whatever the client sends and whatever fails: once `scp -t path`, the
process `n` of a session, has sent three bytes to its standard output that the session has taken, the bytes given
to it begin with a header, as many bytes as it says, and a byte 0; it has created one file, which has exactly this
path and these bytes; and it has finished without an error. -/
theorem C109_acknowledged {os : Scp.Os} {path w : Bytes} {r : R Scp.Err Unit} {s' : Scp.St}
    (hpath : path.head? ≠ some 45) (hrun : Scp.start os [b! "-t", path] ⟨w, []⟩ = (r, s'))
    {n : Nat} {status : UInt32} {t : List Event} {evs : List Scp.Ev} (hevs : evs <+: s'.log)
    (h : Spec.Joint n s'.log status t evs) (h3 : 3 ≤ (Spec.procTaken n t).length) :
    evs = s'.log ∧ r = ok () ∧ ∃ hdr mode name content more,
      Spec.procGiven n t = hdr ++ (content ++ 0 :: more) ∧ Spec.Line hdr (content ++ 0 :: more) ∧
      Spec.HeaderLine hdr mode content.length name ∧ (Spec.scan evs).files = [(path, content)] := by
  obtain ⟨p1, p2⟩ := h.prefixes
  have ho : 3 ≤ (Spec.output evs).length := Nat.le_trans h3 p2.length_le
  obtain ⟨rfl, hdr, mode, name, cs, more, -, e2, e3, e4, e5, e6⟩ :=
    scp_acks hpath hrun (Nat.le_trans ho (output_prefix hevs))
  have hall : evs = s'.log := by
    obtain ⟨tl, htl⟩ := hevs
    rcases List.eq_nil_or_concat tl with rfl | ⟨tl', e, rfl⟩
    · rw [← htl, List.append_nil]
    · exfalso
      rw [e4, List.concat_eq_append, ← List.append_assoc, show copyEvs path hdr cs = [.ack] ++
        (Spec.headerReads hdr ++ [.createParents path, .create path, .ack]) ++ (cs ++ [.read [0]]) ++ [.ack] by
          simp [copyEvs]] at htl
      have hl := (List.append_inj' htl rfl).1
      have : (Spec.output (evs ++ tl')).length = 2 := by
        rw [hl, output_append, output_append _ [_], e5]
        rfl
      rw [output_append, List.length_append] at this
      omega
  subst hall
  refine ⟨rfl, rfl, hdr, mode, name, Spec.scpInput cs, ?_⟩
  obtain ⟨more', hm⟩ := p1
  refine ⟨more', ?_, ?_, e3, e6⟩
  · rw [← hm, e4]
    unfold copyEvs
    rw [scpInput_append, scpInput_append cs]
    simp only [Spec.scpInput, Spec.headerReads, List.flatMap_cons, List.flatMap_nil, List.nil_append, List.append_nil,
      List.cons_append, List.append_assoc]
    rw [← List.append_assoc, List.take_append_drop]
  · refine ⟨e2.1, e2.2.elim .inl fun h => ?_⟩
    simp at h

/-! ### examples -/

/-- a client that copies a file -/
def scpExec : Chan.Request where
  recipientChannel := 0
  ty := b! "exec"
  wantReply := true
  data := Spec.str (b! "scp -t notes")

/-- a packet with data, and the data -/
def dataPacket (d : Bytes) : Bytes × Bytes := (Spec.encode (.channel (.data { recipientChannel := 0, data := d })), d)

/-- the header, in two packets -/
def demoHdrs : List (Bytes × Bytes) := [dataPacket (b! "C06"), dataPacket (b! "44 5 notes" ++ [10])]

/-- the content, in two packets -/
def demoBody : List (Bytes × Bytes) := [dataPacket (b! "hel"), dataPacket (b! "lo" ++ [0])]

def copyPayloads : List Bytes :=
  [Spec.encode (.serviceRequest ⟨b! "ssh-userauth"⟩), sshdRequest, demoP0, Spec.encode (.channel (.request scpExec))] ++
  (demoHdrs ++ demoBody).map (·.1)

theorem copy_entered :
    ∃ m, Spec.Entered sshdConfig (clientState copyPayloads []).rng (clientState copyPayloads []).inp
      [] 4 rootLog flatKeys 5 m ∧
      Spec.Arrive .flat flatKeys 5 (demoP0 :: Spec.encode (.channel (.request scpExec)) ::
        (demoHdrs ++ demoBody).map (·.1)) m [] := by
  obtain ⟨c, s1, h1, h2, h3, h4⟩ := main_session copyPayloads []
  obtain ⟨a, g1, g2⟩ := handshake_shakes (cfg := sshdConfig) (by decide) rfl h1
  obtain ⟨m, f1, f2⟩ := Spec.Arrive.append
    (a := [Spec.encode (.serviceRequest ⟨b! "ssh-userauth"⟩), sshdRequest])
    (b := demoP0 :: Spec.encode (.channel (.request scpExec)) :: (demoHdrs ++ demoBody).map (·.1))
    (conversation_stream [] copyPayloads 3 (by decide +kernel))
  rw [← h4] at f1
  rw [h2, h3] at g2
  refine ⟨m, .mk (t := rootLog) g1 g2 ?_ f1, f2⟩
  refine .served (t := []) (legal_encode (show Spec.Fits (b! "ssh-userauth") by decide)) .nil
    (.accepted (.mk (.publicKey (legal_encode ⟨by decide, by decide, by decide, by decide, by decide +kernel⟩)
      (by decide +kernel)) ?_))
  simp only [sshdConfig, Sshd.handlers]
  rw [C92_anyone _ _ _ _ _ _ (Utf8.valid_iff.mp (by decide +kernel))
    ⟨by decide +kernel, by decide +kernel, by decide +kernel⟩]
  rfl

/-- The file `notes` with the content `hello` is copied, and the client has the acknowledgements and the status. -/
example : ∃ evs ops st s', Scp.start scpOs [b! "-t", b! "notes"] ⟨b! "C0644 5 notes" ++ [10] ++ (b! "hello" ++ [0]), []⟩ =
      (ok (), ⟨[], evs⟩) ∧ (Spec.scan evs).files = [(b! "notes", b! "hello")] ∧
    (run sshdConfig ops).conns[0]? = some ⟨.session 4 st, s'⟩ ∧
    Spec.Joint 0 evs 0 (Spec.dialogLog 0 0 demoP0 (Spec.encode (.channel (.request scpExec))) demoOpen scpExec
      (.exec (b! "scp -t notes")) ⟨true, true, true⟩ (Spec.copyTurns demoHdrs demoBody) 0) evs ∧
    s'.log = rootLog ++ Spec.dialogLog 0 0 demoP0 (Spec.encode (.channel (.request scpExec))) demoOpen scpExec
      (.exec (b! "scp -t notes")) ⟨true, true, true⟩ (Spec.copyTurns demoHdrs demoBody) 0 := by
  obtain ⟨m, h1, h2⟩ := copy_entered
  obtain ⟨evs, e1, -, e2, e3, as, st, s', -, e4, -, ⟨ops, e5, e6⟩, e7⟩ := C109_copied sshdConfig_main
    (clientState copyPayloads []) rfl (by decide +kernel) h1 (hdrs := demoHdrs) (body := demoBody) (o := demoOpen)
    (r := scpExec) (command := b! "scp -t notes") (prog := b! "scp") (path := b! "notes") (mode := b! "0644")
    (ds := b! "5") (name := b! "notes") (content := b! "hello") h2
    (legal_encode demoOpen_wf) (legal_encode (show Spec.Fits _ by decide)) rfl ⟨1, by decide, .exec (by decide)⟩
    (words_iff.mp (by decide +kernel)) (by decide)
    (by
      intro x hx
      simp only [demoHdrs, demoBody, List.cons_append, List.nil_append, List.mem_cons, List.not_mem_nil, or_false] at hx
      rcases hx with rfl | rfl | rfl | rfl <;> exact legal_encode (by show Spec.Fits _; decide))
    rfl rfl (by unfold Spec.Plain; decide) (by unfold Spec.Plain; decide) (by unfold Spec.Decimal; decide) (by decide)
    (Utf8.valid_iff.mp (by decide +kernel))
    (Utf8.valid_iff.mp (by decide +kernel)) rfl (fun _ _ => rfl) scpOs scpOs_works (by unfold Spec.Few; decide +kernel)
  exact ⟨evs, ops, st, s', e1, e2, e7 ops 0 e5 e6, e3, e4⟩

/-- The hypotheses of `C109_acknowledged`: after the third acknowledgement. -/
example : ∃ evs s', Scp.start scpOs [b! "-t", b! "notes"] ⟨b! "C0644 5 notes" ++ [10] ++ (b! "hello" ++ [0]), []⟩ = (ok (), s') ∧
    evs <+: s'.log ∧ ∃ t, Spec.Joint 0 s'.log 0 t evs ∧ 3 ≤ (Spec.procTaken 0 t).length := by
  obtain ⟨g1, g2⟩ := scpHeader_accepted (mode := b! "0644") (ds := b! "5") (name := b! "notes") (size := 5)
    (by unfold Spec.Plain; decide) (by unfold Spec.Plain; decide) (by unfold Spec.Decimal; decide) (by decide)
    (Utf8.valid_iff.mp (by decide +kernel)) (Utf8.valid_iff.mp (by decide +kernel))
  obtain ⟨cs, f1, f2, f3, -⟩ := scp_copies scpOs_works (path := b! "notes") (content := b! "hello") (by decide) (g2 _) g1
  exact ⟨_, _, f1, List.prefix_rfl, _, joint_copy f2 f3 (hdrs := demoHdrs) (body := demoBody) rfl rfl 0 [] [] demoOpen
    scpExec .shell ⟨true, true, true⟩ 0, by decide +kernel⟩

end Nora
