import Verif.Props.Copy
/-
C118: any number of files is copied. The example server, the program `scp` that it has started with any number of
paths, and a client that sends a file for each of them, together.
-/
namespace Nora
open R Server

namespace Spec

/-- A file that a client sends: where it is stored, the fields of its header, its content, and the packets with the
header and with the content and the byte 0, each with the data in it. -/
structure Upload where
  path : Bytes
  mode : Bytes
  size : Bytes
  name : Bytes
  content : Bytes
  hdrs : List (Bytes × Bytes)
  body : List (Bytes × Bytes)

/-- the header of a file -/
def Upload.header (f : Upload) : Bytes := scpHeader f.mode f.size f.name

/-- The path is no option, the header is correct, and the packets have the header and the content. -/
structure Upload.Good (f : Upload) : Prop where
  path : f.path.head? ≠ some 45
  mode : Plain f.mode ∧ Utf8 f.mode
  name : Plain f.name ∧ Utf8 f.name
  size : Decimal f.size f.content.length ∧ f.content.length < 2 ^ 64
  hdrs : (f.hdrs.map (·.2)).flatten = f.header
  body : (f.body.map (·.2)).flatten = f.content ++ [0]

/-- what the client sends for files -/
def uploadBytes (fs : List Upload) : Bytes := fs.flatMap fun f => f.header ++ (f.content ++ [0])

/-- the packets for files, and the data in them -/
def uploadPackets (fs : List Upload) : List (Bytes × Bytes) := fs.flatMap fun f => f.hdrs ++ f.body

/-- What happens when files are copied: the program is ready, and every header and every content is acknowledged. -/
def uploadTurns (fs : List Upload) : List Turn :=
  .writes false [0] :: fs.flatMap fun f =>
    f.hdrs.map (fun x => .gives x.1 x.2) ++ [.writes false [0]] ++
    (f.body.map (fun x => .gives x.1 x.2) ++ [.writes false [0]])

end Spec

/-! ### what scp does with the files -/

section
open Scp Spec

/-- the arguments `-t` and paths -/
theorem receive_many {paths : List Bytes} (hp : ∀ p ∈ paths, p.head? ≠ some 45) :
    (∀ a ∈ b! "-t" :: paths, ¬ UnknownFlag a) ∧ LastMode (b! "-t" :: paths) .receive ∧
      b! "-d" ∉ b! "-t" :: paths ∧ pathsOf (b! "-t" :: paths) = paths := by
  have hne : ∀ x : Bytes, x.head? = some 45 → x ∉ paths := fun x hx h => hp x h hx
  refine ⟨?_, ?_, ?_, ?_⟩
  · intro a ha
    rcases List.mem_cons.mp ha with rfl | ha
    · rintro ⟨-, -, h⟩
      exact h (by unfold Flag; simp)
    · exact fun h => hp a ha h.2.1
  · exact ⟨[], paths, rfl, hne _ rfl, hne _ rfl⟩
  · intro h
    rcases List.mem_cons.mp h with h | h
    · revert h; decide
    · exact hne _ rfl h
  · unfold pathsOf
    rw [List.filter_cons_of_neg (by simp [Flag])]
    refine List.filter_eq_self.mpr fun p hpm => ?_
    have hf : ¬ Flag p := by
      intro h
      unfold Flag at h
      rcases h with h | h | h <;> exact hne _ (by rw [h]; rfl) hpm
    simpa using hf

/-- the content is read and written, after other files -/
theorem copied_after {os : Os} {l evs : List Ev} {w rest : Bytes} {r : R Err Unit} {size : Nat}
    (h : Copied os l size w r evs rest) (hr : r = ok ()) :
    ∀ pos acks fs p c, ∃ pos', evs.foldl Scan.step ⟨pos, acks, fs ++ [(p, c)]⟩ =
      ⟨pos', acks, fs ++ [(p, c ++ scpInput evs)]⟩ := by
  induction h with
  | done => exact fun pos acks fs p c => ⟨pos, by simp [scpInput]⟩
  | short => cases hr
  | fails => cases hr
  | @piece l size c w r evs rest h1 h2 h3 h4 ih =>
    intro pos acks fs p c'
    obtain ⟨pos', g⟩ := ih hr (pos + c.length) acks fs p (c' ++ c)
    refine ⟨pos', ?_⟩
    rw [List.foldl_cons, List.foldl_cons]
    show List.foldl Scan.step ⟨pos + c.length, acks, growLast c (fs ++ [(p, c')])⟩ evs = _
    rw [growLast_append, g]
    simp [scpInput]

/-- what `scp` does to receive these files -/
inductive UploadEvs : List Upload → List Ev → Prop
  | nil : UploadEvs [] []
  | cons {f fs cs evs} : scpInput cs = f.content → output cs = [] →
    (∀ pos acks gs p c, ∃ pos', cs.foldl Scan.step ⟨pos, acks, gs ++ [(p, c)]⟩ =
      ⟨pos', acks, gs ++ [(p, c ++ scpInput cs)]⟩) → UploadEvs fs evs →
    UploadEvs (f :: fs) ((headerReads f.header ++ [.createParents f.path, .create f.path, .ack]) ++
      (cs ++ [.read [0], .ack]) ++ evs)

theorem UploadEvs.scanned {fs : List Upload} {evs : List Ev} (h : UploadEvs fs evs) (sc : Scan) :
    (evs.foldl Scan.step sc).files = sc.files ++ fs.map fun f => (f.path, f.content) := by
  induction h generalizing sc with
  | nil => simp
  | @cons f fs cs evs h1 h2 h3 _ ih =>
    obtain ⟨pos, acks, files⟩ := sc
    rw [List.foldl_append, ih, List.foldl_append, List.foldl_append (l := cs)]
    obtain ⟨pos', g⟩ := h3 (pos + (f.header.take 1).length + (f.header.drop 1).length)
      (acks ++ [pos + (f.header.take 1).length + (f.header.drop 1).length]) files f.path []
    have e : (headerReads f.header ++ [Ev.createParents f.path, .create f.path, .ack]).foldl Scan.step ⟨pos, acks, files⟩ =
      ⟨pos + (f.header.take 1).length + (f.header.drop 1).length,
       acks ++ [pos + (f.header.take 1).length + (f.header.drop 1).length], files ++ [(f.path, [])]⟩ := rfl
    rw [e, g, h1]
    simp [Scan.step]

theorem scp_paths {os : Os} (hos : Works os) {fs : List Upload} (hf : ∀ f ∈ fs, f.Good) (l : List Ev) :
    ∃ evs, PathFiles os l (fs.map (·.path)) (uploadBytes fs) (ok ()) evs [] ∧ UploadEvs fs evs := by
  induction fs generalizing l with
  | nil => exact ⟨[], .done, .nil⟩
  | cons f fs ih =>
    have hg := hf f List.mem_cons_self
    obtain ⟨g1, g2⟩ := scpHeader_accepted hg.mode.1 hg.name.1 hg.size.1 hg.size.2 hg.mode.2 hg.name.2
    obtain ⟨r, cs, rest, hc⟩ := copied_total os
      (l ++ headerReads f.header ++ [.createParents f.path, .create f.path, .ack]) f.content.length
      (f.content ++ 0 :: uploadBytes fs)
    obtain rfl := copied_works hos hc (by simp)
    obtain ⟨e1, e2, e3, -⟩ := copied_content hc rfl
    obtain ⟨e4, rfl⟩ := List.append_inj e1 e2.symm
    have hfile : FileOf os (l ++ headerReads f.header) [.createParents f.path, .create f.path]
        f.content.length (f.content ++ 0 :: uploadBytes fs) (ok ())
        ([.createParents f.path, .create f.path, .ack] ++ (cs ++ .read [0] :: [.ack])) (uploadBytes fs) :=
      .content (ops_works hos _ _) (.nul hc (ops_works hos _ _))
    obtain ⟨evs, i1, i2⟩ := ih (fun x hx => hf x (List.mem_cons_of_mem _ hx)) (l ++ (headerReads f.header ++
      ([.createParents f.path, .create f.path, .ack] ++ (cs ++ .read [0] :: [.ack]))))
    refine ⟨_, ?_, .cons e4.symm e3 (copied_after hc rfl) i2⟩
    have : uploadBytes (f :: fs) = f.header ++ (f.content ++ 0 :: uploadBytes fs) := by
      simp [uploadBytes]
    rw [this, List.map_cons, List.append_assoc (headerReads f.header)]
    exact .next (g2 _) g1 hfile i1

theorem scp_uploads {os : Os} (hos : Works os) {fs : List Upload} (hf : ∀ f ∈ fs, f.Good) :
    ∃ evs, start os (b! "-t" :: fs.map (·.path)) ⟨uploadBytes fs, []⟩ = (ok (), ⟨[], [.ack] ++ evs⟩) ∧
      UploadEvs fs evs ∧ (scan ([.ack] ++ evs)).files = fs.map fun f => (f.path, f.content) := by
  obtain ⟨a1, a2, a3, a4⟩ := receive_many (paths := fs.map (·.path)) (by
    intro p hp
    obtain ⟨f, hm, rfl⟩ := List.mem_map.mp hp
    exact (hf f hm).path)
  obtain ⟨evs, h1, h2⟩ := scp_paths hos hf ([] ++ [.ack])
  refine ⟨evs, ?_, h2, ?_⟩
  · have hrun : ScpRun os (b! "-t" :: fs.map (·.path)) [] (uploadBytes fs) (ok ()) ([.ack] ++ evs) [] := by
      refine .paths a1 a2 a3 (ops_works hos _ _) ?_
      rw [a4]
      exact h1
    exact (C106_exact _ _ _ _ _ _).mpr ⟨_, _, hrun, by simp⟩
  · unfold scan
    rw [List.foldl_append, h2.scanned]
    rfl

end

/-! ### session and program -/

/-- Until now session and program fit together, everything given has been read, and everything written has been
taken. -/
structure Even (n : Nat) (all : List Scp.Ev) (t : List Event) (evs : List Scp.Ev) : Prop where
  joint : Spec.Joint n all 0 t evs
  started : ∃ i o x, .proc (.started n i o x) ∈ t
  given : Spec.procGiven n t = Spec.scpInput evs
  taken : Spec.procTaken n t = Spec.output evs

/-- data is given, the program reads it and acknowledges it -/
theorem Even.step {n : Nat} {all evs es : List Scp.Ev} {t : List Event} (h : Even n all t evs) (peer : UInt32)
    {xs : List (Bytes × Bytes)} (hi : Spec.scpInput es = (xs.map (·.2)).flatten) (ho : Spec.output es = [0]) :
    Even n all (t ++ (xs.map (fun x : Bytes × Bytes => Spec.Turn.gives x.1 x.2) ++
      [Spec.Turn.writes false [0]]).flatMap (Spec.turnBlock n peer)) (evs ++ es) := by
  obtain ⟨j, ⟨i, o, x, hs⟩, g, k⟩ := h
  have j1 := j.gives (peer := peer) (xs := xs)
  have g1 := procGiven_append n t ((xs.map fun x => Spec.Turn.gives x.1 x.2).flatMap (Spec.turnBlock n peer))
  have k1 := procTaken_append n t ((xs.map fun x => Spec.Turn.gives x.1 x.2).flatMap (Spec.turnBlock n peer))
  have s1 : .proc (.started n i o x) ∈ t ++ (xs.map fun x => Spec.Turn.gives x.1 x.2).flatMap (Spec.turnBlock n peer) :=
    List.mem_append_left _ hs
  rw [given_gives, g] at g1
  rw [taken_gives, k, List.append_nil] at k1
  rw [List.flatMap_append, ← List.append_assoc]
  generalize t ++ (xs.map fun x => Spec.Turn.gives x.1 x.2).flatMap (Spec.turnBlock n peer) = T at *
  have j2 := j1.goes (es := es) ⟨_, _, _, s1⟩ (by rw [g1, scpInput_append, hi]; exact List.prefix_rfl)
  have j3 := j2.writes (peer := peer) (d := [0]) (by simp) (by rw [k1, output_append, ho]; exact List.prefix_rfl)
  rw [List.flatMap_cons, List.flatMap_nil, List.append_nil]
  refine ⟨j3, ⟨_, _, _, List.mem_append_left _ s1⟩, ?_, ?_⟩
  · rw [procGiven_append, g1, scpInput_append, hi]
    simp [Spec.turnBlock, Spec.procGiven]
  · rw [procTaken_append, k1, output_append, ho]
    simp [Spec.turnBlock, Spec.procTaken]

theorem Even.uploads {n : Nat} {all evs es : List Scp.Ev} {t : List Event} (h : Even n all t evs) (peer : UInt32)
    {fs : List Spec.Upload} (hu : UploadEvs fs es) (hf : ∀ f ∈ fs, f.Good) :
    Even n all (t ++ (fs.flatMap fun f => f.hdrs.map (fun x => Spec.Turn.gives x.1 x.2) ++ [.writes false [0]] ++
      (f.body.map (fun x => Spec.Turn.gives x.1 x.2) ++ [.writes false [0]])).flatMap (Spec.turnBlock n peer))
      (evs ++ es) := by
  induction hu generalizing t evs with
  | nil => simpa using h
  | @cons f fs cs es h1 h2 _ _ ih =>
    have hg := hf f List.mem_cons_self
    have e1 := h.step peer (xs := f.hdrs)
      (es := Spec.headerReads f.header ++ [.createParents f.path, .create f.path, .ack])
      (by
        rw [hg.hdrs]
        simp only [Spec.scpInput, Spec.headerReads, List.flatMap_cons, List.flatMap_nil,
          List.nil_append, List.append_nil, List.cons_append, List.take_append_drop]) rfl
    have e2 := e1.step peer (xs := f.body) (es := cs ++ [.read [0], .ack])
      (by rw [hg.body, scpInput_append, h1]; rfl) (by rw [output_append, h2]; rfl)
    have e3 := ih e2 fun x hx => hf x (List.mem_cons_of_mem _ hx)
    rw [List.flatMap_cons, List.flatMap_append, List.flatMap_append]
    simpa only [List.append_assoc] using e3

/-- the output ends, and the program exits -/
theorem Even.ends {n : Nat} {all : List Scp.Ev} {T : List Event} (h : Even n all T all) (peer : UInt32) :
    Spec.Joint n all 0 (T ++ Spec.endLog n peer 0) all := by
  obtain ⟨j, -, -, k⟩ := h
  rw [show T ++ Spec.endLog n peer 0 = T ++ [.proc (.stdout n [])] ++
    [.sent (Spec.encode (Spec.eofMsg peer)), .sent (Spec.encode (Spec.closeMsg peer))] ++ [.proc (.exited n 0)] ++
    [.sent (Spec.encode (Spec.exitMsg peer 0))] by simp [Spec.endLog]]
  refine Spec.Joint.quiet (.session (Spec.Joint.quiet (.session j ?_ ?_ ?_) ?_) ?_ ?_ ?_) ?_
  · intro d hd
    cases hd
    rw [k, List.append_nil]
    exact List.prefix_rfl
  · exact fun _ => ⟨rfl, k⟩
  · intro x hx; cases hx
  · simp
  · intro d hd; cases hd
  · intro hd; cases hd
  · intro x hx
    cases hx
    exact ⟨rfl, rfl⟩
  · simp

/-- session and program fit together -/
theorem joint_uploads {fs : List Spec.Upload} {es : List Scp.Ev} (hu : UploadEvs fs es) (hf : ∀ f ∈ fs, f.Good)
    (id : UInt32) (p1 p2 : Bytes) (o : Chan.Open) (r : Chan.Request) (ty : SpawnType) (io : IoSet) (n : Nat) :
    Spec.Joint n ([.ack] ++ es) 0 (Spec.dialogLog id n p1 p2 o r ty io (Spec.uploadTurns fs) 0) ([.ack] ++ es) := by
  have j0 : Even n ([.ack] ++ es) (Spec.startLog id n p1 p2 o r ty io) [] := by
    refine ⟨?_, ⟨io.stdin, io.stdout, io.stderr, by simp [Spec.startLog]⟩, ?_, ?_⟩
    · have := Spec.Joint.quiet (b := Spec.startLog id n p1 p2 o r ty io)
        (Spec.Joint.nil (n := n) (all := [.ack] ++ es) (status := 0)) (by
          intro e he
          unfold Spec.startLog Spec.replyIf at he
          simp only [List.cons_append, List.nil_append, List.mem_cons] at he
          rcases he with rfl | rfl | rfl | rfl | rfl | he
          · simp
          · simp
          · simp
          · simp
          · simp
          · split at he
            · rw [List.mem_singleton.mp he]; simp
            · cases he)
      rwa [List.nil_append] at this
    · unfold Spec.startLog Spec.replyIf
      cases r.wantReply <;> rfl
    · unfold Spec.startLog Spec.replyIf
      cases r.wantReply <;> rfl
  have j1 := (j0.step o.senderChannel (xs := []) (es := [.ack]) rfl rfl).uploads o.senderChannel hu hf
  unfold Spec.dialogLog Spec.uploadTurns
  rw [show ∀ ts : List Spec.Turn, (Spec.Turn.writes false [0] :: ts).flatMap (Spec.turnBlock n o.senderChannel) =
    ([] ++ [Spec.Turn.writes false [0]]).flatMap (Spec.turnBlock n o.senderChannel) ++
      ts.flatMap (Spec.turnBlock n o.senderChannel) from fun ts => by simp, ← List.append_assoc]
  exact j1.ends _

theorem packets_uploads (fs : List Spec.Upload) :
    Spec.turnPackets (Spec.uploadTurns fs) = (Spec.uploadPackets fs).map (·.1) := by
  have key : ∀ xs : List (Bytes × Bytes),
      Spec.turnPackets (xs.map fun x => Spec.Turn.gives x.1 x.2) = xs.map (·.1) := by
    intro xs
    unfold Spec.turnPackets
    rw [List.filterMap_map]
    simp [Function.comp_def]
  have h1 : ∀ xs ys, Spec.turnPackets (xs ++ ys) = Spec.turnPackets xs ++ Spec.turnPackets ys :=
    fun xs ys => List.filterMap_append
  have h2 : Spec.turnPackets [.writes false [0]] = [] := rfl
  unfold Spec.uploadTurns Spec.uploadPackets
  rw [show ∀ ts : List Spec.Turn, Spec.Turn.writes false [0] :: ts = [Spec.Turn.writes false [0]] ++ ts from
    fun _ => rfl, h1, h2, List.nil_append]
  induction fs with
  | nil => rfl
  | cons f fs ih =>
    rw [List.flatMap_cons, List.flatMap_cons, h1, h1, h1, h1, h2, key, key, ih]
    simp

theorem outputs_uploads (fs : List Spec.Upload) :
    Spec.turnOutputs (Spec.uploadTurns fs) = List.replicate (2 * fs.length + 1) [0] := by
  have key : ∀ xs : List (Bytes × Bytes),
      Spec.turnOutputs (xs.map fun x => Spec.Turn.gives x.1 x.2) = [] := by
    intro xs
    unfold Spec.turnOutputs
    rw [List.filterMap_map]
    simp [Function.comp_def]
  have h1 : ∀ xs ys, Spec.turnOutputs (xs ++ ys) = Spec.turnOutputs xs ++ Spec.turnOutputs ys :=
    fun xs ys => List.filterMap_append
  have h2 : Spec.turnOutputs [.writes false [0]] = [[0]] := rfl
  unfold Spec.uploadTurns
  rw [show ∀ ts : List Spec.Turn, Spec.Turn.writes false [0] :: ts = [Spec.Turn.writes false [0]] ++ ts from
    fun _ => rfl, h1, h2, List.replicate_succ, List.singleton_append]
  congr 1
  induction fs with
  | nil => rfl
  | cons f fs ih =>
    rw [List.flatMap_cons, h1, h1, h1, h1, h2, key, key, ih, List.length_cons,
      show 2 * (fs.length + 1) = 2 * fs.length + 1 + 1 by omega, List.replicate_succ, List.replicate_succ]
    rfl

/-- C118: any number of files is copied. A client gets into the example server, opens a channel and asks for a
command, a program (which is `scp`), `-t` and any paths. For each path it sends a header with the size of a content,
and the content and the byte 0, divided into packets in any way. The program can be started, it takes what it is
given, and the operations of `scp` succeed. Then `scp` creates exactly these files, in this order, each with its
path and content, and exits with the status 0; and there are steps of the client such that in every run of the
server in which it takes these steps (there is one), whatever the other clients do, all of this happens, so that
session and program fit together: one acknowledgement comes before the first header, one after each header and
before its content, and one after each content; and exactly these, the end of the output and the exit status are
what the client decrypts. -/
theorem C118_copied {G : KeyGen} {E : Ed25519} {number : Bytes → Nat} {S : Sshd.Sys} {entropy : Nat → Byte}
    {bound : Bool} {cfg : Config} (hm : Sshd.main G E number S entropy bound = ok cfg) (s : IoSt)
    (hw : s.wcap = none) (hlen : s.inp.length + 4 < 2 ^ 64) {user n : Nat} {t0 : List Event} {k : Spec.Keys}
    {w rest : Bytes} (h : Spec.Entered cfg s.rng s.inp s.log user t0 k n w)
    {p1 p2 : Bytes} {o : Chan.Open} {r : Chan.Request} {command prog : Bytes} {fs : List Spec.Upload}
    (hs : Spec.Arrive cfg.K k n (p1 :: p2 :: (Spec.uploadPackets fs).map (·.1)) w rest)
    (h1 : Spec.Legal (.channel (.open o)) p1) (h2 : Spec.Legal (.channel (.request r)) p2)
    (hr : r.recipientChannel = 0) (hq : Spec.Asks r (.exec command))
    (hwords : Spec.Words command (prog :: b! "-t" :: fs.map (·.path))) (hfs : ∀ f ∈ fs, f.Good)
    (hdata : ∀ x ∈ Spec.uploadPackets fs, Spec.Legal (.channel (.data { recipientChannel := 0, data := x.2 })) x.1)
    (hstart : S.start (s.log ++ t0 ++ [.received p1, .sent (Spec.encode (Spec.confirm 0 o)), .received p2])
      (prog :: b! "-t" :: fs.map (·.path)) = true)
    (hwrite : ∀ log d, S.write log 0 d = ok d.length) (os : Scp.Os) (hos : Spec.Works os)
    (hc : Spec.Few (t0 ++ Spec.dialogLog 0 0 p1 p2 o r (.exec command) ⟨true, true, true⟩
      (Spec.uploadTurns fs) 0)) :
    ∃ evs, Scp.start os (b! "-t" :: fs.map (·.path)) ⟨Spec.uploadBytes fs, []⟩ = (ok (), ⟨[], evs⟩) ∧
      Scp.exitStatus (ok ()) = 0 ∧ (Spec.scan evs).files = fs.map (fun f => (f.path, f.content)) ∧
      Spec.Joint 0 evs 0
        (Spec.dialogLog 0 0 p1 p2 o r (.exec command) ⟨true, true, true⟩ (Spec.uploadTurns fs) 0) evs ∧
      ∃ as st s', Spec.Smooth as ∧
        s'.log = s.log ++ (t0 ++ Spec.dialogLog 0 0 p1 p2 o r (.exec command) ⟨true, true, true⟩
          (Spec.uploadTurns fs) 0) ∧
        (∃ hello w' k', s'.out = s.out ++ (hello ++ w') ∧
          ∀ (peer : ChaCha) (buf : Bytes) (sp : IoSt), Spec.keysOf peer = k' → peer.counter = 3 →
            35000 ≤ buf.length → sp.inp = w' →
            ∃ count, delivered cfg.K count peer buf sp = Spec.sentPayloads t0 ++
              ([Spec.confirm 0 o] ++ (if r.wantReply then [Spec.success o.senderChannel] else []) ++
                List.replicate (2 * fs.length + 1) (Spec.dataMsg o.senderChannel [0]) ++
                [Spec.eofMsg o.senderChannel, Spec.closeMsg o.senderChannel,
                 Spec.exitMsg o.senderChannel 0]).map Spec.encode) ∧
        (∃ ops, (run cfg ops).running = true ∧ Spec.own 0 ops = some (s, as)) ∧
        ∀ ops i, (run cfg ops).running = true → Spec.own i ops = some (s, as) →
          (run cfg ops).conns[i]? = some ⟨.session user st, s'⟩ := by
  have hid := main_fits hm
  have hC : cfg.C = Sshd.connHandlers S := by rw [main_ok hm]
  obtain ⟨es, f1, f2, f3⟩ := scp_uploads hos hfs
  refine ⟨_, f1, rfl, f3, joint_uploads f2 hfs _ _ _ _ _ _ _ _, ?_⟩
  obtain ⟨as, st, s', e1, e2, ⟨hello, w', k', e3, -, e4⟩, e5, e6⟩ := C108_server cfg s user t0 k n w rest hid hw hlen h
    (p1 := p1) (p2 := p2) (o := o) (r := r) (q := .exec command) (ty := .exec command) (io := ⟨true, true, true⟩)
    (turns := Spec.uploadTurns fs) (status := 0)
    (by rw [packets_uploads]; exact hs) h1 h2 hr hq rfl
    (by
      rw [hC]
      exact ((C105_spawn S _ user (.exec command) _ rfl).1 _).mpr ⟨rfl, _, .exec hwords (by simp), hstart⟩)
    rfl
    (by
      intro x hx
      simp only [Spec.uploadTurns, List.mem_append, List.mem_cons, List.not_mem_nil, or_false, List.mem_map,
        List.mem_flatMap] at hx
      rcases hx with rfl | ⟨f, hf, (⟨y, hy, rfl⟩ | rfl) | ⟨y, hy, rfl⟩ | rfl⟩
      · exact ⟨by simp, by simp, by simp⟩
      · exact ⟨hdata y (List.mem_flatMap.mpr ⟨f, hf, List.mem_append_left _ hy⟩), rfl⟩
      · exact ⟨by simp, by simp, by simp⟩
      · exact ⟨hdata y (List.mem_flatMap.mpr ⟨f, hf, List.mem_append_right _ hy⟩), rfl⟩
      · exact ⟨by simp, by simp, by simp⟩)
    (fun log d => ⟨d.length, by rw [hC]; exact hwrite log d, Nat.le_refl _⟩) hc
  refine ⟨as, st, s', e1, e2, ⟨hello, w', k', e3, fun peer buf sp x1 x2 x3 x4 =>
    ⟨(Spec.sentPayloads t0).length + (Spec.dialogReplies 0 o r (Spec.uploadTurns fs) 0).length, ?_⟩⟩, e5, e6⟩
  rw [e4 peer buf sp x1 x2 x3 x4]
  unfold Spec.dialogReplies
  rw [outputs_uploads]
  simp

/-! ### what has been acknowledged -/

section
open Scp Spec
variable {os : Os} {l evs : List Ev} {w rest : Bytes} {r : R Err Unit}

theorem scan_grows (evs : List Ev) (sc : Scan) (fs ys : List (Bytes × Bytes)) (hf : sc.files = fs ++ ys) (hy : ys ≠ []) :
    fs <+: (evs.foldl Scan.step sc).files := by
  induction evs generalizing sc ys with
  | nil => exact ⟨ys, hf.symm⟩
  | cons e evs ih =>
    rw [List.foldl_cons]
    cases e with
    | create p => exact ih _ (ys ++ [(p, [])]) (by simp [Scan.step, hf]) (by simp)
    | write bs =>
      rcases List.eq_nil_or_concat ys with rfl | ⟨zs, ⟨p, c⟩, rfl⟩
      · exact absurd rfl hy
      · refine ih _ (zs ++ [(p, c ++ bs)]) ?_ (by simp)
        show growLast bs sc.files = _
        rw [hf, List.concat_eq_append, ← List.append_assoc, growLast_append, List.append_assoc]
    | _ => exact ih _ ys hf hy

/-- nothing is written before a file has been created -/
def Safe (evs : List Ev) : Prop :=
  (∀ bs, Ev.write bs ∉ evs) ∨ ∃ a p b, evs = a ++ .create p :: b ∧ ∀ bs, Ev.write bs ∉ a

theorem nowrite_keeps (h : ∀ bs, Ev.write bs ∉ evs) (sc : Scan) : sc.files <+: (evs.foldl Scan.step sc).files := by
  induction evs generalizing sc with
  | nil => exact List.prefix_rfl
  | cons e evs ih =>
    rw [List.foldl_cons]
    refine List.IsPrefix.trans ?_ (ih (fun bs hb => h bs (List.mem_cons_of_mem _ hb)) _)
    cases e with
    | create p => exact List.prefix_append _ _
    | write bs => exact absurd List.mem_cons_self (h bs)
    | _ => exact List.prefix_rfl

theorem Safe.keeps (h : Safe evs) (sc : Scan) : sc.files <+: (evs.foldl Scan.step sc).files := by
  rcases h with h | ⟨a, p, b, rfl, h⟩
  · exact nowrite_keeps h sc
  · rw [List.foldl_append, List.foldl_cons]
    exact (nowrite_keeps h sc).trans (scan_grows b _ _ [(p, [])] rfl (by simp))

theorem Safe.of_prefix {evs' : List Ev} (h : Safe evs) (hp : evs' <+: evs) : Safe evs' := by
  rcases h with h | ⟨a, p, b, rfl, h⟩
  · exact .inl fun bs hb => h bs (hp.subset hb)
  · have h2 : a ++ [.create p] <+: a ++ .create p :: b := ⟨b, by simp⟩
    rcases List.prefix_or_prefix_of_prefix hp h2 with g | ⟨c, rfl⟩
    · refine .inl fun bs hb => ?_
      rcases List.mem_append.mp (g.subset hb) with g | g
      · exact h bs g
      · cases List.mem_singleton.mp g
    · exact .inr ⟨a, p, c, by simp, h⟩

/-- a file: it fails before the content, or it has been created -/
theorem file_cases {p : Bytes} {size : Nat} (h : FileOf os l [.createParents p, .create p] size w r evs rest) :
    (evs <+: [.createParents p, .create p, .ack] ∧ r ≠ ok ()) ∨
    ∃ evs', evs = [.createParents p, .create p, .ack] ++ evs' ∧
      Stored os (l ++ [.createParents p, .create p, .ack]) size w r evs' rest := by
  cases h with
  | fails h hr => exact .inl ⟨(ops_prefix h).1, hr⟩
  | content h h' =>
    obtain rfl := (ops_prefix h).2 rfl
    exact .inr ⟨_, rfl, h'⟩

theorem path_safe {ps : List Bytes} (h : PathFiles os l ps w r evs rest) : Safe evs := by
  have key : ∀ {l p size w r evs rest} (hdr : Bytes) (more : List Ev), (r = ok () ∨ more = []) →
      FileOf os l [.createParents p, .create p] size w r evs rest → Safe (headerReads hdr ++ evs ++ more) := by
    intro l p size w r evs rest hdr more hm h
    rcases file_cases h with ⟨h1, h2⟩ | ⟨evs', rfl, -⟩
    · rcases hm with hm | rfl
      · exact absurd hm h2
      · refine .inl fun bs hb => ?_
        rw [List.append_nil] at hb
        rcases List.mem_append.mp hb with hb | hb
        · simp [headerReads] at hb
        · have := h1.subset hb
          simp at this
    · exact .inr ⟨headerReads hdr ++ [.createParents p], p, .ack :: evs' ++ more, by simp, by simp [headerReads]⟩
  cases h with
  | done => exact .inl (by simp)
  | few => exact .inl (by simp)
  | bad h => cases h <;> exact .inl (by simp)
  | @last _ _ _ hdr _ _ _ _ _ _ _ _ _ h _ =>
    have := key hdr [] (.inr rfl) h
    rwa [List.append_nil] at this
  | next _ _ h _ => exact key _ _ (.inl rfl) h

theorem path_acks {ps : List Bytes} (h : PathFiles os l ps w r evs rest) (k : Nat) (es : List Ev) (hes : es <+: evs)
    (ho : 2 * k ≤ (output es).length) :
    k ≤ ps.length ∧ ∃ fs : List Sent, fs.length = k ∧ (∀ f ∈ fs, ∃ name, Announces f name) ∧
      wires fs <+: scpInput es ∧
      ∀ sc, sc.files ++ (ps.take k).zip (fs.map (·.content)) <+: (es.foldl Scan.step sc).files := by
  induction h generalizing k es with
  | done =>
    obtain rfl := List.prefix_nil.mp hes
    obtain rfl : k = 0 := by simp [output] at ho; omega
    exact ⟨Nat.zero_le _, [], rfl, by simp, by simp [wires], fun sc => by simp⟩
  | few =>
    obtain rfl := List.prefix_nil.mp hes
    obtain rfl : k = 0 := by simp [output] at ho; omega
    exact ⟨Nat.zero_le _, [], rfl, by simp, by simp [wires], fun sc => by simp⟩
  | @bad l p ps w r evs rest h =>
    have := output_prefix hes
    rw [output_bad h] at this
    obtain rfl : k = 0 := by rw [List.length_nil] at this; omega
    exact ⟨Nat.zero_le _, [], rfl, by simp, by simp [wires], fun sc => by
      simpa using ((path_safe (os := os) (l := l) (.bad (p := p) (ps := ps) h)).of_prefix hes).keeps sc⟩
  | @last l p ps hdr w mode size name r evs rest h1 h2 h3 h4 =>
    have hle : (output (headerReads hdr ++ evs)).length ≤ 1 := by
      rw [output_append]
      rcases file_cases h3 with ⟨g, -⟩ | ⟨evs', rfl, g⟩
      · have := output_prefix g
        simpa [output, headerReads] using this
      · rw [output_append]
        have : ¬ 1 ≤ (output evs').length := fun hx => by
          obtain ⟨_, _, _, _, _, g, _⟩ := output_stored g hx
          exact h4 g
        have he : output evs' = [] := List.length_eq_zero_iff.mp (by omega)
        rw [he]
        exact Nat.le_refl _
    have := output_prefix hes
    obtain rfl : k = 0 := by omega
    exact ⟨Nat.zero_le _, [], rfl, by simp, by simp [wires], fun sc => by
      simpa using ((path_safe (.last (ps := ps) h1 h2 h3 h4)).of_prefix hes).keeps sc⟩
  | @next l p ps hdr w mode size name fe w' r evs' rest h1 h2 h3 h4 ih =>
    cases k with
    | zero =>
      exact ⟨Nat.zero_le _, [], rfl, by simp, by simp [wires], fun sc => by
        simpa using ((path_safe (.next h1 h2 h3 h4)).of_prefix hes).keeps sc⟩
    | succ k =>
      rcases file_cases h3 with ⟨-, g⟩ | ⟨se, rfl, g⟩
      · exact absurd rfl g
      obtain ⟨cs, rfl, g1, rfl, g2, g3⟩ : ∃ cs, se = cs ++ [.read [0], .ack] ∧ w = scpInput cs ++ 0 :: w' ∧
          size = (scpInput cs).length ∧ output cs = [] ∧
          ∀ pos acks fs p c, ∃ pos', cs.foldl Scan.step ⟨pos, acks, fs ++ [(p, c)]⟩ =
            ⟨pos', acks, fs ++ [(p, c ++ scpInput cs)]⟩ := by
        cases g with
        | fails _ h => exact absurd rfl h
        | nul h h' =>
          obtain ⟨e1, e2, e3, -⟩ := copied_content h rfl
          obtain rfl := (ops_prefix h').2 rfl
          exact ⟨_, rfl, e1, e2.symm, e3, copied_after h rfl⟩
      generalize hA : headerReads hdr ++ ([Ev.createParents p, .create p, .ack] ++ (cs ++ [.read [0], .ack])) = A at *
      have hA' : A = headerReads hdr ++ ([Ev.createParents p, .create p, .ack] ++ (cs ++ [.read [0]])) ++ [.ack] := by
        rw [← hA]; simp
      have hAe : A <+: es := by
        rcases List.prefix_or_prefix_of_prefix hes (List.prefix_append A evs') with hx | hx
        · rw [hA'] at hx ⊢
          rcases List.prefix_concat_iff.mp hx with hx | hx
          · exact hx ▸ List.prefix_rfl
          · have := output_prefix hx
            rw [output_append, output_append _ (cs ++ _), output_append cs, g2] at this
            simp [output, headerReads] at this
            omega
        · exact hx
      obtain ⟨e2, rfl⟩ := hAe
      have hoA : output A = [0, 0] := by
        rw [← hA, output_append, output_append _ (cs ++ _), output_append cs, g2]
        rfl
      have hiA : scpInput A = hdr ++ (scpInput cs ++ [0]) := by
        rw [← hA, scpInput_append, scpInput_append _ (cs ++ _), scpInput_append cs]
        simp only [scpInput, headerReads, List.flatMap_cons, List.flatMap_nil,
          List.nil_append, List.append_nil, List.take_append_drop]
      rw [output_append, hoA, List.length_append] at ho
      obtain ⟨i1, fs, i2, i3, i4, i5⟩ := ih k e2 ((List.prefix_append_right_inj A).mp hes) (by simp at ho; omega)
      refine ⟨by simp; omega, ⟨hdr, scpInput cs⟩ :: fs, by simp [i2], ?_, ?_, fun sc => ?_⟩
      · intro f hf
        rcases List.mem_cons.mp hf with rfl | hf
        · refine ⟨name, mode, h2, ?_, h1.1⟩
          rcases h1.2 with h | h
          · exact h
          · rw [g1] at h; simp at h
        · exact i3 f hf
      · rw [scpInput_append, hiA, show wires (⟨hdr, scpInput cs⟩ :: fs) = hdr ++ (scpInput cs ++ [0]) ++ wires fs by
          simp [wires, Sent.wire]]
        exact (List.prefix_append_right_inj _).mpr i4
      · rw [List.foldl_append]
        obtain ⟨pos, acks, files⟩ := sc
        obtain ⟨pos', g⟩ := g3 (pos + (hdr.take 1).length + (hdr.drop 1).length)
          (acks ++ [pos + (hdr.take 1).length + (hdr.drop 1).length]) files p []
        have e : (headerReads hdr ++ [Ev.createParents p, .create p, .ack]).foldl Scan.step ⟨pos, acks, files⟩ =
          ⟨pos + (hdr.take 1).length + (hdr.drop 1).length,
           acks ++ [pos + (hdr.take 1).length + (hdr.drop 1).length], files ++ [(p, [])]⟩ := rfl
        have hfA : (A.foldl Scan.step ⟨pos, acks, files⟩).files = files ++ [(p, scpInput cs)] := by
          rw [← hA, ← List.append_assoc, List.foldl_append, e, List.foldl_append, g]
          rfl
        have := i5 (A.foldl Scan.step ⟨pos, acks, files⟩)
        rw [hfA] at this
        simpa using this

/-- a file: it fails before the content, or it has been created -/
theorem file_casesD {p : Bytes} {size : Nat} (h : FileOf os l [.create p] size w r evs rest) :
    (evs <+: [.create p, .ack] ∧ r ≠ ok ()) ∨
    ∃ evs', evs = [.create p, .ack] ++ evs' ∧
      Stored os (l ++ [.create p, .ack]) size w r evs' rest := by
  cases h with
  | fails h hr => exact .inl ⟨(ops_prefix h).1, hr⟩
  | content h h' =>
    obtain rfl := (ops_prefix h).2 rfl
    exact .inr ⟨_, rfl, h'⟩

theorem dir_safe (h : DirFiles os l w r evs rest) : Safe evs := by
  have key : ∀ {l p size w r evs rest} (hdr : Bytes) (more : List Ev), (r = ok () ∨ more = []) →
      FileOf os l [.create p] size w r evs rest → Safe (headerReads hdr ++ evs ++ more) := by
    intro l p size w r evs rest hdr more hm h
    rcases file_casesD h with ⟨h1, h2⟩ | ⟨evs', rfl, -⟩
    · rcases hm with hm | rfl
      · exact absurd hm h2
      · refine .inl fun bs hb => ?_
        rw [List.append_nil] at hb
        rcases List.mem_append.mp hb with hb | hb
        · simp [headerReads] at hb
        · have := h1.subset hb
          simp at this
    · exact .inr ⟨headerReads hdr, p, .ack :: evs' ++ more, by simp, by simp [headerReads]⟩
  cases h with
  | done => exact .inl (by simp)
  | bad h => cases h <;> exact .inl (by simp)
  | @last _ hdr _ _ _ _ _ _ _ _ _ h _ =>
    have := key hdr [] (.inr rfl) h
    rwa [List.append_nil] at this
  | next _ _ h _ => exact key _ _ (.inl rfl) h

theorem dir_acks (h : DirFiles os l w r evs rest) (k : Nat) (es : List Ev) (hes : es <+: evs)
    (ho : 2 * k ≤ (output es).length) :
    ∃ fs : List (Sent × Bytes), fs.length = k ∧ (∀ f ∈ fs, Announces f.1 f.2) ∧
      wires (fs.map (·.1)) <+: scpInput es ∧
      ∀ sc, sc.files ++ fs.map (fun f => (f.2, f.1.content)) <+: (es.foldl Scan.step sc).files := by
  induction h generalizing k es with
  | done =>
    obtain rfl := List.prefix_nil.mp hes
    obtain rfl : k = 0 := by simp [output] at ho; omega
    exact ⟨[], rfl, by simp, by simp [wires], fun sc => by simp⟩
  | @bad l w r evs rest h =>
    have := output_prefix hes
    rw [output_bad h] at this
    obtain rfl : k = 0 := by rw [List.length_nil] at this; omega
    exact ⟨[], rfl, by simp, by simp [wires], fun sc => by
      simpa using ((dir_safe (os := os) (l := l) (.bad h)).of_prefix hes).keeps sc⟩
  | @last l hdr w mode size p r evs rest h1 h2 h3 h4 =>
    have hle : (output (headerReads hdr ++ evs)).length ≤ 1 := by
      rw [output_append]
      rcases file_casesD h3 with ⟨g, -⟩ | ⟨evs', rfl, g⟩
      · have := output_prefix g
        simpa [output, headerReads] using this
      · rw [output_append]
        have : ¬ 1 ≤ (output evs').length := fun hx => by
          obtain ⟨_, _, _, _, _, g, _⟩ := output_stored g hx
          exact h4 g
        have he : output evs' = [] := List.length_eq_zero_iff.mp (by omega)
        rw [he]
        exact Nat.le_refl _
    have := output_prefix hes
    obtain rfl : k = 0 := by omega
    exact ⟨[], rfl, by simp, by simp [wires], fun sc => by
      simpa using ((dir_safe (.last h1 h2 h3 h4)).of_prefix hes).keeps sc⟩
  | @next l hdr w mode size p fe w' r evs' rest h1 h2 h3 h4 ih =>
    cases k with
    | zero =>
      exact ⟨[], rfl, by simp, by simp [wires], fun sc => by
        simpa using ((dir_safe (.next h1 h2 h3 h4)).of_prefix hes).keeps sc⟩
    | succ k =>
      rcases file_casesD h3 with ⟨-, g⟩ | ⟨se, rfl, g⟩
      · exact absurd rfl g
      obtain ⟨cs, rfl, g1, rfl, g2, g3⟩ : ∃ cs, se = cs ++ [.read [0], .ack] ∧ w = scpInput cs ++ 0 :: w' ∧
          size = (scpInput cs).length ∧ output cs = [] ∧
          ∀ pos acks fs p c, ∃ pos', cs.foldl Scan.step ⟨pos, acks, fs ++ [(p, c)]⟩ =
            ⟨pos', acks, fs ++ [(p, c ++ scpInput cs)]⟩ := by
        cases g with
        | fails _ h => exact absurd rfl h
        | nul h h' =>
          obtain ⟨e1, e2, e3, -⟩ := copied_content h rfl
          obtain rfl := (ops_prefix h').2 rfl
          exact ⟨_, rfl, e1, e2.symm, e3, copied_after h rfl⟩
      generalize hA : headerReads hdr ++ ([Ev.create p, .ack] ++ (cs ++ [.read [0], .ack])) = A at *
      have hA' : A = headerReads hdr ++ ([Ev.create p, .ack] ++ (cs ++ [.read [0]])) ++ [.ack] := by
        rw [← hA]; simp
      have hAe : A <+: es := by
        rcases List.prefix_or_prefix_of_prefix hes (List.prefix_append A evs') with hx | hx
        · rw [hA'] at hx ⊢
          rcases List.prefix_concat_iff.mp hx with hx | hx
          · exact hx ▸ List.prefix_rfl
          · have := output_prefix hx
            rw [output_append, output_append _ (cs ++ _), output_append cs, g2] at this
            simp [output, headerReads] at this
            omega
        · exact hx
      obtain ⟨e2, rfl⟩ := hAe
      have hoA : output A = [0, 0] := by
        rw [← hA, output_append, output_append _ (cs ++ _), output_append cs, g2]
        rfl
      have hiA : scpInput A = hdr ++ (scpInput cs ++ [0]) := by
        rw [← hA, scpInput_append, scpInput_append _ (cs ++ _), scpInput_append cs]
        simp only [scpInput, headerReads, List.flatMap_cons, List.flatMap_nil,
          List.nil_append, List.append_nil, List.take_append_drop]
      rw [output_append, hoA, List.length_append] at ho
      obtain ⟨fs, i2, i3, i4, i5⟩ := ih k e2 ((List.prefix_append_right_inj A).mp hes) (by simp at ho; omega)
      refine ⟨(⟨hdr, scpInput cs⟩, p) :: fs, by simp [i2], ?_, ?_, fun sc => ?_⟩
      · intro f hf
        rcases List.mem_cons.mp hf with rfl | hf
        · refine ⟨mode, h2, ?_, h1.1⟩
          rcases h1.2 with h | h
          · exact h
          · rw [g1] at h; simp at h
        · exact i3 f hf
      · rw [scpInput_append, hiA, show wires (((⟨hdr, scpInput cs⟩, p) :: fs).map (·.1)) =
          hdr ++ (scpInput cs ++ [0]) ++ wires (fs.map (·.1)) by
          simp [wires, Sent.wire]]
        exact (List.prefix_append_right_inj _).mpr i4
      · rw [List.foldl_append]
        obtain ⟨pos, acks, files⟩ := sc
        obtain ⟨pos', g⟩ := g3 (pos + (hdr.take 1).length + (hdr.drop 1).length)
          (acks ++ [pos + (hdr.take 1).length + (hdr.drop 1).length]) files p []
        have e : (headerReads hdr ++ [Ev.create p, .ack]).foldl Scan.step ⟨pos, acks, files⟩ =
          ⟨pos + (hdr.take 1).length + (hdr.drop 1).length,
           acks ++ [pos + (hdr.take 1).length + (hdr.drop 1).length], files ++ [(p, [])]⟩ := rfl
        have hfA : (A.foldl Scan.step ⟨pos, acks, files⟩).files = files ++ [(p, scpInput cs)] := by
          rw [← hA, ← List.append_assoc, List.foldl_append, e, List.foldl_append, g]
          rfl
        have := i5 (A.foldl Scan.step ⟨pos, acks, files⟩)
        rw [hfA] at this
        simpa using this

end

/-- C118: what is acknowledged is stored. Whatever the client sends and whatever fails: once `scp -t` with paths, the
process `n` of a session, has sent `2 k + 1` bytes to its standard output that the session has taken, the bytes given
to it begin with `k` files, each of them a header, as many bytes as it says, and a byte 0; there are at least `k`
paths; and the first `k` files that it has created have exactly the first `k` paths and these contents, in this
order. -/
theorem C118_acknowledged {os : Scp.Os} {paths : List Bytes} {w : Bytes} {r : R Scp.Err Unit} {s' : Scp.St}
    (hpath : ∀ p ∈ paths, p.head? ≠ some 45) (hrun : Scp.start os (b! "-t" :: paths) ⟨w, []⟩ = (r, s'))
    {n k : Nat} {status : UInt32} {t : List Event} {evs : List Scp.Ev} (hevs : evs <+: s'.log)
    (h : Spec.Joint n s'.log status t evs) (hk : 2 * k + 1 ≤ (Spec.procTaken n t).length) :
    k ≤ paths.length ∧ ∃ fs : List Spec.Sent, fs.length = k ∧ (∀ f ∈ fs, ∃ name, Spec.Announces f name) ∧
      Spec.wires fs <+: Spec.procGiven n t ∧
      (paths.take k).zip (fs.map (·.content)) <+: (Spec.scan evs).files := by
  obtain ⟨p1, p2⟩ := h.prefixes
  have ho : 2 * k + 1 ≤ (Spec.output evs).length := Nat.le_trans hk p2.length_le
  obtain ⟨a1, a2, a3, a4⟩ := receive_many hpath
  obtain ⟨all, rest, hr, rfl⟩ := (C106_exact _ _ _ _ _ _).mp hrun
  clear hrun h
  simp only [List.nil_append] at hevs
  have hoa := Nat.le_trans ho (output_prefix hevs)
  have fin : ∀ {l w r rest pe}, all = [.ack] ++ pe → Spec.PathFiles os l paths w r pe rest →
      k ≤ paths.length ∧ ∃ fs : List Spec.Sent, fs.length = k ∧ (∀ f ∈ fs, ∃ name, Spec.Announces f name) ∧
        Spec.wires fs <+: Spec.procGiven n t ∧
        (paths.take k).zip (fs.map (·.content)) <+: (Spec.scan evs).files := by
    intro l w r rest pe he hp
    subst he
    cases evs with
    | nil => simp [Spec.output] at ho
    | cons e es =>
      obtain ⟨rfl, hes⟩ := List.cons_prefix_cons.mp hevs
      obtain ⟨g1, fs, g2, g3, g4, g5⟩ := path_acks hp k es hes (by simp [Spec.output] at ho; omega)
      exact ⟨g1, fs, g2, g3, g4.trans p1, g5 ⟨0, [0], []⟩⟩
  cases hr with
  | flag h1 h2 => exact absurd h2 (a1 _ h1)
  | client _ h => exact absurd List.mem_cons_self h.2
  | send _ h =>
    obtain ⟨xs, ys, h, -⟩ := h
    have : b! "-f" ∈ b! "-t" :: paths := by rw [h]; simp
    rcases List.mem_cons.mp this with h | h
    · exact absurd h (by decide)
    · exact absurd rfl (hpath _ h)
  | noDir _ _ h => exact absurd h a3
  | dirFails _ _ h => exact absurd h a3
  | dir _ _ h => exact absurd h a3
  | pathsFail _ _ _ h g =>
    cases h with
    | fails => simp [Spec.output] at hoa
    | next _ h =>
      cases h
      exact absurd rfl g
  | paths h1 h2 h3 h4 h5 =>
    obtain rfl := (ops_prefix h4).2 rfl
    rw [a4] at h5
    exact fin rfl h5

/-- C118 with a directory: what is acknowledged is stored. The arguments are `-d`, one path and perhaps more options,
but not `-f`. Whatever the client sends and whatever fails: once `scp`, the process `n` of a session, has sent
`2 k + 1` bytes to its standard output that the session has taken, it has created the directory and gone into it, the
bytes given to it begin with `k` files, each of them a header, as many bytes as it says, and a byte 0; and the first
`k` files that it has created have exactly the names in these headers and these contents, in this order. -/
theorem C118_directory {os : Scp.Os} {args : List Bytes} {dir w : Bytes} {r : R Scp.Err Unit} {s' : Scp.St}
    (hf : b! "-f" ∉ args) (hd : b! "-d" ∈ args) (hdir : Spec.pathsOf args = [dir])
    (hrun : Scp.start os args ⟨w, []⟩ = (r, s'))
    {n k : Nat} {status : UInt32} {t : List Event} {evs : List Scp.Ev} (hevs : evs <+: s'.log)
    (h : Spec.Joint n s'.log status t evs) (hk : 2 * k + 1 ≤ (Spec.procTaken n t).length) :
    [.createDirAll dir, .chdir dir, .ack] <+: evs ∧ ∃ fs : List (Spec.Sent × Bytes), fs.length = k ∧
      (∀ f ∈ fs, Spec.Announces f.1 f.2) ∧ Spec.wires (fs.map (·.1)) <+: Spec.procGiven n t ∧
      fs.map (fun f => (f.2, f.1.content)) <+: (Spec.scan evs).files := by
  obtain ⟨p1, p2⟩ := h.prefixes
  have ho : 2 * k + 1 ≤ (Spec.output evs).length := Nat.le_trans hk p2.length_le
  obtain ⟨all, rest, hr, rfl⟩ := (C106_exact _ _ _ _ _ _).mp hrun
  clear hrun h
  simp only [List.nil_append] at hevs
  have hoa := Nat.le_trans ho (output_prefix hevs)
  cases hr with
  | flag h1 h2 => simp [Spec.output] at hoa
  | client _ h => simp [Spec.output] at hoa
  | send _ h =>
    obtain ⟨xs, ys, h, -⟩ := h
    exact absurd (by rw [h]; simp) hf
  | noDir _ _ h => simp [Spec.output] at hoa
  | dirFails _ _ _ _ h g =>
    cases h with
    | fails => simp [Spec.output] at hoa
    | next _ h =>
      cases h with
      | fails => simp [Spec.output] at hoa
      | next _ h =>
        cases h with
        | fails => simp [Spec.output] at hoa
        | next _ h =>
          cases h
          exact absurd rfl g
  | dir _ _ _ h2 h4 h5 =>
    rw [hdir] at h2
    injection h2 with h2
    subst h2
    obtain rfl := (ops_prefix h4).2 rfl
    have hA : [.createDirAll dir, .chdir dir, .ack] <+: evs := by
      rcases List.prefix_or_prefix_of_prefix hevs (List.prefix_append _ _) with hx | hx
      · rcases List.prefix_concat_iff.mp (show evs <+: [.createDirAll dir, .chdir dir] ++ [.ack] from hx) with hx | hx
        · exact hx ▸ List.prefix_rfl
        · have := output_prefix hx
          simp [Spec.output] at this
          rw [this] at ho
          simp at ho
      · exact hx
    obtain ⟨es, rfl⟩ := hA
    obtain ⟨fs, g2, g3, g4, g5⟩ := dir_acks h5 k es ((List.prefix_append_right_inj _).mp hevs)
      (by simp [Spec.output] at ho; omega)
    exact ⟨List.prefix_append _ _, fs, g2, g3, g4.trans p1, g5 ⟨0, [0], []⟩⟩
  | pathsFail _ _ h => exact absurd hd h
  | paths _ _ h => exact absurd hd h

/-! ### what a client has been told -/

/-- if only the process `n` has its home there, and it has no errors, then what is sent there is its output -/
theorem outputFor_taken {homes : Nat → Option UInt32} {peer : UInt32} {n : Nat} {t : List Event}
    (hone : ∀ m, homes m = some peer → m = n) (herr : ∀ d, .proc (.stderr n d) ∈ t → d = []) :
    (Spec.outputFor homes peer t).length ≤ (Spec.procTaken n t).length := by
  induction t with
  | nil => exact Nat.le_refl _
  | cons e t ih =>
    have ih := ih fun d hd => herr d (List.mem_cons_of_mem _ hd)
    rw [show e :: t = [e] ++ t from rfl, outputFor_append, procTaken_append, List.length_append, List.length_append]
    refine Nat.add_le_add ?_ ih
    cases e with
    | proc x =>
      cases x with
      | stdout m d =>
        by_cases hm : homes m = some peer
        · obtain rfl := hone m hm
          simp [Spec.outputFor, Spec.procTaken, hm]
        · simp [Spec.outputFor, hm]
      | stderr m d =>
        by_cases hm : homes m = some peer
        · obtain rfl := hone m hm
          obtain rfl := herr d List.mem_cons_self
          simp [Spec.outputFor]
        · simp [Spec.outputFor, hm]
      | _ => exact Nat.zero_le _
    | _ => exact Nat.zero_le _

/-- C118: what a client has been told is stored. In every session, whatever the client sends, whatever fails and
however it is interrupted: if `scp -t` with paths is the only process whose output goes to a channel of the client, it
has written no errors, and `2 k + 1` bytes of data have been sent to this channel, then the bytes given to the
program begin with `k` files, and the first `k` files that it has created have exactly the first `k` paths and the
contents of these. -/
theorem C118_told {K : Crypto} {H : ConnHandlers} {user : Nat} {a : Authenticated} {sched : List Client.Step}
    {s s1 : IoSt} {r1 : R Client.Stop (Client.St ⊕ Unit)} {t : List Event}
    (hsess : Client.steps K H user (Client.start a) sched s = (r1, s1)) (hl : s1.log = s.log ++ t)
    {os : Scp.Os} {paths : List Bytes} {w : Bytes} {r : R Scp.Err Unit} {s' : Scp.St}
    (hpath : ∀ p ∈ paths, p.head? ≠ some 45) (hrun : Scp.start os (b! "-t" :: paths) ⟨w, []⟩ = (r, s'))
    {n k : Nat} {status : UInt32} {evs : List Scp.Ev} (hevs : evs <+: s'.log) (h : Spec.Joint n s'.log status t evs)
    {peer : UInt32} (hone : ∀ m, (Spec.view t).homes m = some peer → m = n)
    (herr : ∀ d, .proc (.stderr n d) ∈ t → d = []) (hk : 2 * k + 1 ≤ (Spec.dataTo peer t).length) :
    k ≤ paths.length ∧ ∃ fs : List Spec.Sent, fs.length = k ∧ (∀ f ∈ fs, ∃ name, Spec.Announces f name) ∧
      Spec.wires fs <+: Spec.procGiven n t ∧
      (paths.take k).zip (fs.map (·.content)) <+: (Spec.scan evs).files :=
  C118_acknowledged hpath hrun hevs h
    (Nat.le_trans hk (Nat.le_trans (C44_data hsess hl peer).1.length_le (outputFor_taken hone herr)))

/-! ### examples -/

/-- a client that copies two files -/
def manyExec : Chan.Request where
  recipientChannel := 0
  ty := b! "exec"
  wantReply := true
  data := Spec.str (b! "scp -t a/b c")

def demoUploads : List Spec.Upload :=
  [⟨b! "a/b", b! "0644", b! "5", b! "notes", b! "hello", demoHdrs, demoBody⟩,
   ⟨b! "c", b! "0600", b! "0", b! "x", [], [dataPacket (b! "C0600 0 x" ++ [10])], [dataPacket [0]]⟩]

theorem demoUploads_good : ∀ f ∈ demoUploads, f.Good := by
  intro f hf
  simp only [demoUploads, List.mem_cons, List.not_mem_nil, or_false] at hf
  rcases hf with rfl | rfl
  · exact ⟨by decide, ⟨by unfold Spec.Plain; decide, Utf8.valid_iff.mp (by decide +kernel)⟩,
      ⟨by unfold Spec.Plain; decide, Utf8.valid_iff.mp (by decide +kernel)⟩,
      ⟨by unfold Spec.Decimal; decide, by decide⟩, rfl, rfl⟩
  · exact ⟨by decide, ⟨by unfold Spec.Plain; decide, Utf8.valid_iff.mp (by decide +kernel)⟩,
      ⟨by unfold Spec.Plain; decide, Utf8.valid_iff.mp (by decide +kernel)⟩,
      ⟨by unfold Spec.Decimal; decide, by decide⟩, rfl, rfl⟩

def manyPayloads : List Bytes :=
  [Spec.encode (.serviceRequest ⟨b! "ssh-userauth"⟩), sshdRequest, demoP0, Spec.encode (.channel (.request manyExec))] ++
  (Spec.uploadPackets demoUploads).map (·.1)

theorem many_entered :
    ∃ m, Spec.Entered sshdConfig (clientState manyPayloads []).rng (clientState manyPayloads []).inp
      [] 4 rootLog flatKeys 5 m ∧
      Spec.Arrive .flat flatKeys 5 (demoP0 :: Spec.encode (.channel (.request manyExec)) ::
        (Spec.uploadPackets demoUploads).map (·.1)) m [] := by
  obtain ⟨c, s1, h1, h2, h3, h4⟩ := main_session manyPayloads []
  obtain ⟨a, g1, g2⟩ := handshake_shakes (cfg := sshdConfig) (by decide) rfl h1
  obtain ⟨m, f1, f2⟩ := Spec.Arrive.append
    (a := [Spec.encode (.serviceRequest ⟨b! "ssh-userauth"⟩), sshdRequest])
    (b := demoP0 :: Spec.encode (.channel (.request manyExec)) :: (Spec.uploadPackets demoUploads).map (·.1))
    (conversation_stream [] manyPayloads 3 (by decide +kernel))
  rw [← h4] at f1
  rw [h2, h3] at g2
  refine ⟨m, .mk (t := rootLog) g1 g2 ?_ f1, f2⟩
  refine .served (t := []) (legal_encode (show Spec.Fits (b! "ssh-userauth") by decide)) .nil
    (.accepted (.mk (.publicKey (legal_encode ⟨by decide, by decide, by decide, by decide, by decide +kernel⟩)
      (by decide +kernel)) ?_))
  simp only [sshdConfig, Sshd.handlers]
  rw [C92_anyone _ _ _ _ _ _ (Utf8.valid_iff.mp (by decide +kernel))
    ⟨by decide +kernel, by decide +kernel, by decide +kernel⟩]
  rfl

/-- Two files are copied, `a/b` with the content `hello` and `c`, which is empty. -/
example : ∃ evs ops st s', Scp.start scpOs [b! "-t", b! "a/b", b! "c"]
      ⟨b! "C0644 5 notes" ++ [10] ++ (b! "hello" ++ [0]) ++ (b! "C0600 0 x" ++ [10] ++ [0]), []⟩ = (ok (), ⟨[], evs⟩) ∧
    (Spec.scan evs).files = [(b! "a/b", b! "hello"), (b! "c", [])] ∧
    (run sshdConfig ops).conns[0]? = some ⟨.session 4 st, s'⟩ ∧
    Spec.Joint 0 evs 0 (Spec.dialogLog 0 0 demoP0 (Spec.encode (.channel (.request manyExec))) demoOpen manyExec
      (.exec (b! "scp -t a/b c")) ⟨true, true, true⟩ (Spec.uploadTurns demoUploads) 0) evs ∧
    s'.log = rootLog ++ Spec.dialogLog 0 0 demoP0 (Spec.encode (.channel (.request manyExec))) demoOpen manyExec
      (.exec (b! "scp -t a/b c")) ⟨true, true, true⟩ (Spec.uploadTurns demoUploads) 0 := by
  obtain ⟨m, h1, h2⟩ := many_entered
  obtain ⟨evs, e1, -, e2, e3, as, st, s', -, e4, -, ⟨ops, e5, e6⟩, e7⟩ := C118_copied sshdConfig_main
    (clientState manyPayloads []) rfl (by decide +kernel) h1 (fs := demoUploads) (o := demoOpen)
    (r := manyExec) (command := b! "scp -t a/b c") (prog := b! "scp") h2
    (legal_encode demoOpen_wf) (legal_encode (show Spec.Fits _ by decide)) rfl ⟨1, by decide, .exec (by decide)⟩
    (words_iff.mp (by decide +kernel)) demoUploads_good
    (by
      intro x hx
      simp only [demoUploads, Spec.uploadPackets, demoHdrs, demoBody, List.flatMap_cons, List.flatMap_nil,
        List.append_nil, List.cons_append, List.nil_append, List.mem_cons, List.not_mem_nil, or_false] at hx
      rcases hx with rfl | rfl | rfl | rfl | rfl | rfl <;> exact legal_encode (by show Spec.Fits _; decide))
    rfl (fun _ _ => rfl) scpOs scpOs_works (by unfold Spec.Few; decide +kernel)
  exact ⟨evs, ops, st, s', e1, e2, e7 ops 0 e5 e6, e3, e4⟩

/-- The hypotheses of `C118_acknowledged`, with two files. -/
example : ∃ evs s', Scp.start scpOs [b! "-t", b! "a/b", b! "c"] ⟨Spec.uploadBytes demoUploads, []⟩ = (ok (), s') ∧
    evs <+: s'.log ∧ ∃ t, Spec.Joint 0 s'.log 0 t evs ∧ 2 * 2 + 1 ≤ (Spec.procTaken 0 t).length := by
  obtain ⟨es, f1, f2, -⟩ := scp_uploads scpOs_works demoUploads_good
  exact ⟨_, _, f1, List.prefix_rfl, _, joint_uploads f2 demoUploads_good 0 [] [] demoOpen manyExec .shell
    ⟨true, true, true⟩ 0, by decide +kernel⟩

/-- The hypotheses of `C118_directory`, with two files: the session gives the program everything and takes five
bytes. -/
example : ∃ s', Scp.start scpOs [b! "-t", b! "-d", b! "in"] ⟨Spec.uploadBytes demoUploads, []⟩ = (ok (), s') ∧
    b! "-f" ∉ [b! "-t", b! "-d", b! "in"] ∧ b! "-d" ∈ [b! "-t", b! "-d", b! "in"] ∧
    Spec.pathsOf [b! "-t", b! "-d", b! "in"] = [b! "in"] ∧
    ∃ t, Spec.Joint 0 s'.log 0 t s'.log ∧ 2 * 2 + 1 ≤ (Spec.procTaken 0 t).length := by
  have h1 : (Scp.start scpOs [b! "-t", b! "-d", b! "in"] ⟨Spec.uploadBytes demoUploads, []⟩).1 = ok () := by decide +kernel
  have h2 : Spec.scpInput (Scp.start scpOs [b! "-t", b! "-d", b! "in"] ⟨Spec.uploadBytes demoUploads, []⟩).2.log =
    Spec.uploadBytes demoUploads := by decide +kernel
  have h3 : Spec.output (Scp.start scpOs [b! "-t", b! "-d", b! "in"] ⟨Spec.uploadBytes demoUploads, []⟩).2.log =
    [0, 0, 0, 0, 0] := by decide +kernel
  generalize Scp.start scpOs [b! "-t", b! "-d", b! "in"] ⟨Spec.uploadBytes demoUploads, []⟩ = x at *
  obtain ⟨r, s'⟩ := x
  simp only at h1 h2 h3
  subst h1
  refine ⟨s', rfl, by decide, by decide, by decide, [.proc (.started 0 true true true)] ++
    [.proc (.stdin 0 (Spec.uploadBytes demoUploads))] ++ Spec.turnBlock 0 7 (.writes false [0, 0, 0, 0, 0]), ?_, ?_⟩
  · have j0 : Spec.Joint 0 s'.log 0 ([] ++ ([.proc (.started 0 true true true)] ++
        [.proc (.stdin 0 (Spec.uploadBytes demoUploads))])) [] := Spec.Joint.quiet .nil (by simp)
    have j1 := j0.goes (es := s'.log) ⟨true, true, true, by simp⟩ (by
      rw [List.nil_append, h2]
      simp [Spec.procGiven])
    rw [List.nil_append, List.nil_append] at j1
    exact j1.writes (by simp) (by rw [h3]; exact List.prefix_rfl)
  · exact Nat.le_refl 5

theorem homes_spawned {t : List Event} {m : Nat} {p : UInt32} (h : (Spec.view t).homes m = some p) :
    ∃ ty, .proc (.spawn ty m) ∈ t := by
  have key : ∀ (t : List Event) (v : Spec.View), (t.foldl Spec.View.next v).homes m = some p →
      v.homes m = some p ∨ ∃ ty, .proc (.spawn ty m) ∈ t := by
    intro t
    induction t with
    | nil => exact fun v h => .inl h
    | cons e t ih =>
      intro v h
      rcases ih _ h with h | ⟨ty, h⟩
      · by_cases he : ∃ ty k, e = .proc (.spawn ty k)
        · obtain ⟨ty, k, rfl⟩ := he
          by_cases hk : k = m
          · exact .inr ⟨ty, by rw [hk]; exact List.mem_cons_self⟩
          · refine .inl ?_
            simp only [Spec.View.next] at h
            rwa [set_ne _ _ (fun hx => hk hx.symm)] at h
        · rw [(next_homes fun ty k hx => he ⟨ty, k, hx⟩).1] at h
          exact .inl h
      · exact .inr ⟨ty, List.mem_cons_of_mem _ h⟩
  rcases key t Spec.View.empty h with h | h
  · cases h
  · exact h

theorem dataTo_uploads (n : Nat) (peer : UInt32) (turns : List Spec.Turn)
    (h : ∀ x ∈ Spec.turnOutputs turns, x.length ≤ 256) :
    Spec.dataTo peer (turns.flatMap (Spec.turnBlock n peer)) = (Spec.turnOutputs turns).flatten := by
  induction turns with
  | nil => rfl
  | cons x turns ih =>
    rw [List.flatMap_cons, dataTo_append]
    cases x with
    | gives p d =>
      have e : Spec.turnOutputs (.gives p d :: turns) = Spec.turnOutputs turns := rfl
      rw [e] at h ⊢
      rw [ih h]
      rfl
    | writes b d =>
      have e : Spec.turnOutputs (.writes b d :: turns) = d :: Spec.turnOutputs turns := rfl
      rw [e] at h ⊢
      rw [ih fun x hx => h x (List.mem_cons_of_mem _ hx), List.flatten_cons]
      congr 1
      have hd := h d List.mem_cons_self
      cases b
      · show Spec.dataTo peer (.sent (Spec.encode (Spec.dataMsg peer d)) :: []) = d
        rw [dataTo_data hd]
        simp [Spec.dataTo]
      · show Spec.dataTo peer (.sent (Spec.encode (Spec.dataMsg peer d)) :: []) = d
        rw [dataTo_data hd]
        simp [Spec.dataTo]

/-- the hypotheses of `C118_told`, with two files, when the session has gone on to the end of the program -/
example : ∃ sched st s1 t evs s', Client.steps .flat (demoHandlers ⟨true, true, true⟩ List.length) 1000
      (Client.start demoAuth) sched
      ⟨conversation 5 (demoP0 :: Spec.encode (.channel (.request manyExec)) :: (Spec.uploadPackets demoUploads).map (·.1)),
        [], none, fun _ => 0, []⟩ = (ok (.inl st), s1) ∧ s1.log = [] ++ t ∧
    Scp.start scpOs [b! "-t", b! "a/b", b! "c"] ⟨Spec.uploadBytes demoUploads, []⟩ = (ok (), s') ∧
    evs <+: s'.log ∧ Spec.Joint 0 s'.log 0 t evs ∧ (∀ m, (Spec.view t).homes m = some 5 → m = 0) ∧
    (∀ d, .proc (.stderr 0 d) ∈ t → d = []) ∧ 2 * 2 + 1 ≤ (Spec.dataTo 5 t).length := by
  obtain ⟨es, f1, f2, -⟩ := scp_uploads scpOs_works demoUploads_good
  obtain ⟨more, st, s1, -, e1, e2, -⟩ := C108_dialog (K := .flat) (H := demoHandlers ⟨true, true, true⟩ List.length)
    (user := 1000) (a := demoAuth) (sched := []) (t := []) (st := Client.start demoAuth)
    (s := ⟨conversation 5 (demoP0 :: Spec.encode (.channel (.request manyExec)) ::
      (Spec.uploadPackets demoUploads).map (·.1)), [], none, fun _ => 0, []⟩)
    (p1 := demoP0) (p2 := Spec.encode (.channel (.request manyExec))) (o := demoOpen) (r := manyExec) (id := 0)
    (io := ⟨true, true, true⟩) (turns := Spec.uploadTurns demoUploads) (status := 0)
    (q := .exec (b! "scp -t a/b c")) (ty := .exec (b! "scp -t a/b c"))
    (ps := demoP0 :: Spec.encode (.channel (.request manyExec)) :: (Spec.uploadPackets demoUploads).map (·.1))
    (rest := []) rfl rfl (fun _ _ h => by cases h) rfl
    (by
      have := conversation_stream [] (demoP0 :: Spec.encode (.channel (.request manyExec)) ::
        (Spec.uploadPackets demoUploads).map (·.1)) 5 (by decide +kernel)
      rw [List.append_nil] at this
      exact this)
    (by rw [packets_uploads]; exact List.prefix_rfl)
    (legal_encode demoOpen_wf) (legal_encode (show Spec.Fits _ by decide))
    ⟨rfl, fun j hj => absurd hj (Nat.not_lt_zero _)⟩ rfl ⟨1, by decide, .exec (by decide)⟩ rfl rfl rfl
    (by
      intro x hx
      simp only [Spec.uploadTurns, demoUploads, demoHdrs, demoBody, List.flatMap_cons, List.flatMap_nil, List.map_cons,
        List.map_nil, List.append_nil, List.cons_append, List.nil_append, List.mem_cons, List.not_mem_nil, or_false] at hx
      rcases hx with rfl | rfl | rfl | rfl | rfl | rfl | rfl | rfl | rfl | rfl | rfl <;>
        first
          | exact ⟨by simp, by simp, by simp⟩
          | exact ⟨legal_encode (by show Spec.Fits _; decide), rfl⟩)
    (fun log d => ⟨d.length, rfl, Nat.le_refl _⟩) ⟨by decide +kernel, by decide +kernel⟩
  refine ⟨_, st, s1, _, _, _, e1, e2, f1, List.prefix_rfl, joint_uploads f2 demoUploads_good _ _ _ _ _ _ _ _, ?_, ?_, ?_⟩
  · intro m hm
    obtain ⟨ty, h⟩ := homes_spawned hm
    revert h
    simp [Spec.dialogLog, Spec.startLog, Spec.endLog, Spec.replyIf, manyExec, Spec.uploadTurns, demoUploads, demoHdrs,
      demoBody, Spec.turnBlock]
    exact fun _ h => h
  · intro d hd
    revert hd
    simp [Spec.dialogLog, Spec.startLog, Spec.endLog, Spec.replyIf, manyExec, Spec.uploadTurns, demoUploads, demoHdrs,
      demoBody, Spec.turnBlock]
  · rw [List.nil_append, Spec.dialogLog, dataTo_append, dataTo_append]
    rw [show demoOpen.senderChannel = 5 from rfl, dataTo_uploads _ _ _ (by decide +kernel), outputs_uploads]
    simp only [List.length_append, List.length_flatten, List.map_replicate, List.sum_replicate_nat]
    exact Nat.le_trans (by decide) (Nat.le_trans (Nat.le_add_left _ _) (Nat.le_add_right _ _))

end Nora
