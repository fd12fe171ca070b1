import Verif.Props.Copy
/-
C117: a file is fetched. The example server, the program `scp -f` that it has started, and a client that takes a file.
-/
namespace Nora
open R Server

/-! ### what scp does with a file that is fetched -/

/-- the arguments `-f` and a path -/
theorem send_args {path : Bytes} (hp : path.head? ≠ some 45) :
    (∀ a ∈ [b! "-f", path], ¬ Spec.UnknownFlag a) ∧ Spec.LastMode [b! "-f", path] .send ∧
      Spec.pathsOf [b! "-f", path] = [path] := by
  have hne : ∀ x : Bytes, x.head? = some 45 → x ≠ path := fun x hx h => hp (by rw [← h]; exact hx)
  have hf : ¬ Spec.Flag path := by
    intro h
    unfold Spec.Flag at h
    rcases h with h | h | h <;> exact hne _ (by decide) h.symm
  refine ⟨?_, ?_, ?_⟩
  · intro a ha
    simp only [List.mem_cons, List.not_mem_nil, or_false] at ha
    rcases ha with rfl | rfl
    · rintro ⟨-, -, h⟩
      exact h (by unfold Spec.Flag; simp)
    · exact fun h => hp h.2.1
  · exact ⟨[], [path], rfl, by simpa using hne (b! "-f") rfl, by simpa using hne (b! "-t") rfl⟩
  · unfold Spec.pathsOf
    rw [List.filter_cons_of_neg (by simp [Spec.Flag]), List.filter_cons_of_pos (by simpa using hf)]
    rfl

/-- everything `scp -f path` does to send a file -/
def fetchEvs (path name content : Bytes) : List Scp.Ev :=
  [.openFile path, .out (Spec.sentHeader name), .out content]

theorem output_fetch (path name content : Bytes) :
    Spec.output (fetchEvs path name content) = Spec.sentHeader name ++ content := by
  simp [fetchEvs, Spec.output]

theorem scp_sends {os : Scp.Os} (hos : Spec.Works os) {path name content : Bytes} (hp : path.head? ≠ some 45)
    (hn : Spec.FileName path name) (hu : Spec.Utf8 name) (hc : os.content path = (content, true)) (w : Bytes) :
    Scp.start os [b! "-f", path] ⟨w, []⟩ = (ok (), ⟨w, fetchEvs path name content⟩) := by
  obtain ⟨a1, a2, a3⟩ := send_args hp
  refine (C106_exact _ _ _ _ _ _).mpr ⟨_, _, .send a1 a2 ?_, rfl⟩
  rw [a3]
  have := Spec.Sends.next (os := os) (l := []) (p := path) (ps := []) (name := name) (hos _ _) hn hu (hos _ _) (hos _ _)
    (by rw [hc]) .done
  rwa [hc] at this

/-- whatever fails, nothing but a beginning of header and content is written -/
theorem scp_sent {os : Scp.Os} {path w : Bytes} {r : R Scp.Err Unit} {s' : Scp.St} (hp : path.head? ≠ some 45)
    (h : Scp.start os [b! "-f", path] ⟨w, []⟩ = (r, s')) :
    Spec.output s'.log = [] ∨ ∃ name, Spec.FileName path name ∧
      (Spec.output s'.log = Spec.sentHeader name ∨ Spec.output s'.log = Spec.sentHeader name ++ (os.content path).1) := by
  obtain ⟨a1, a2, a3⟩ := send_args hp
  obtain ⟨evs, rest, hrun, rfl⟩ := (C106_exact _ _ _ _ _ _).mp h
  simp only [List.nil_append]
  have last : ∀ {m}, Spec.LastMode [b! "-f", path] m → m = .send := by
    intro m hm
    have ht : b! "-t" ∉ [b! "-f", path] := by
      intro ht
      rcases List.mem_cons.mp ht with ht | ht
      · exact absurd ht (by decide)
      · exact hp (by rw [← List.mem_singleton.mp ht]; rfl)
    cases m with
    | client => exact absurd List.mem_cons_self hm.1
    | send => rfl
    | receive =>
      obtain ⟨xs, ys, hm, -⟩ := hm
      exact absurd (by rw [hm]; simp) ht
  clear h
  cases hrun with
  | flag h1 h2 => exact absurd h2 (a1 _ h1)
  | client _ h => cases last h
  | noDir _ h => cases last h
  | dirFails _ h => cases last h
  | dir _ h => cases last h
  | pathsFail _ h => cases last h
  | paths _ h => cases last h
  | send _ _ h =>
    rw [a3] at h
    cases h with
    | notOpened => exact .inl rfl
    | noName => exact .inl rfl
    | notUtf8 => exact .inl rfl
    | noHeader => exact .inl rfl
    | noContent _ h => exact .inr ⟨_, h, .inl (by simp [Spec.output])⟩
    | notRead _ h => exact .inr ⟨_, h, .inr (by simp [Spec.output])⟩
    | next _ h _ _ _ _ h' =>
      cases h'
      exact .inr ⟨_, h, .inr (by simp [Spec.output])⟩

/-! ### the session -/

theorem taken_turn (n : Nat) (peer : UInt32) {x : Spec.Turn} (hx : ∀ e d, x = .writes e d → e = false) :
    Spec.procTaken n (Spec.turnBlock n peer x) = (Spec.turnOutputs [x]).flatten := by
  cases x with
  | gives p d => rfl
  | writes e d =>
    obtain rfl := hx e d rfl
    simp [Spec.turnBlock, Spec.procTaken, Spec.turnOutputs]

/-- the output of a program that has done everything is taken from it -/
theorem Spec.Joint.takes {n : Nat} {all : List Scp.Ev} {status : UInt32} {peer : UInt32} {turns : List Spec.Turn}
    {t : List Event} (h : Spec.Joint n all status t all)
    (hx : ∀ e d, .writes e d ∈ turns → e = false ∧ d ≠ [])
    (ho : Spec.procTaken n t ++ (Spec.turnOutputs turns).flatten <+: Spec.output all) :
    Spec.Joint n all status (t ++ turns.flatMap (Spec.turnBlock n peer)) all ∧
      Spec.procTaken n (t ++ turns.flatMap (Spec.turnBlock n peer)) =
        Spec.procTaken n t ++ (Spec.turnOutputs turns).flatten := by
  induction turns generalizing t with
  | nil =>
    simp only [List.flatMap_nil, List.append_nil]
    exact ⟨h, by simp [Spec.turnOutputs]⟩
  | cons x turns ih =>
    have hsplit : Spec.turnOutputs (x :: turns) = Spec.turnOutputs [x] ++ Spec.turnOutputs turns := by
      rw [show x :: turns = [x] ++ turns from rfl]
      exact List.filterMap_append
    have hx1 : ∀ e d, x = .writes e d → e = false := fun e d hd => (hx e d (hd ▸ List.mem_cons_self)).1
    have htk : Spec.procTaken n (t ++ Spec.turnBlock n peer x) = Spec.procTaken n t ++ (Spec.turnOutputs [x]).flatten := by
      rw [procTaken_append, taken_turn n peer hx1]
    rw [hsplit, List.flatten_append, ← List.append_assoc] at ho
    have h1 : Spec.Joint n all status (t ++ Spec.turnBlock n peer x) all := by
      cases x with
      | gives p d => exact h.quiet (by simp [Spec.turnBlock])
      | writes e d =>
        obtain ⟨rfl, hd⟩ := hx e d List.mem_cons_self
        refine h.writes hd (List.IsPrefix.trans ?_ ho)
        simp [Spec.turnOutputs]
    obtain ⟨g1, g2⟩ := ih h1 (fun e d hd => hx e d (List.mem_cons_of_mem _ hd)) (by rw [htk]; exact ho)
    rw [List.flatMap_cons, ← List.append_assoc]
    refine ⟨g1, ?_⟩
    rw [g2, htk, hsplit, List.flatten_append, List.append_assoc]

/-- session and program fit together -/
theorem joint_fetch {all : List Scp.Ev} {turns : List Spec.Turn} (hi : Spec.scpInput all = [])
    (hx : ∀ e d, .writes e d ∈ turns → e = false ∧ d ≠ []) (ho : (Spec.turnOutputs turns).flatten = Spec.output all)
    (id : UInt32) (p1 p2 : Bytes) (o : Chan.Open) (r : Chan.Request) (ty : SpawnType) (io : IoSet) (n : Nat) :
    Spec.Joint n all 0 (Spec.dialogLog id n p1 p2 o r ty io turns 0) all := by
  have hst : .proc (.started n io.stdin io.stdout io.stderr) ∈ Spec.startLog id n p1 p2 o r ty io := by
    simp [Spec.startLog]
  have hgs : Spec.procTaken n (Spec.startLog id n p1 p2 o r ty io) = [] := by
    unfold Spec.startLog Spec.replyIf
    cases r.wantReply <;> rfl
  have j0 : Spec.Joint n all 0 (Spec.startLog id n p1 p2 o r ty io) [] := by
    have := Spec.Joint.quiet (b := Spec.startLog id n p1 p2 o r ty io)
      (Spec.Joint.nil (n := n) (all := all) (status := 0)) (by
        intro e he
        unfold Spec.startLog Spec.replyIf at he
        simp only [List.cons_append, List.nil_append, List.mem_cons] at he
        rcases he with rfl | rfl | rfl | rfl | rfl | he
        · simp
        · simp
        · simp
        · simp
        · simp
        · split at he
          · rw [List.mem_singleton.mp he]; simp
          · cases he)
    rwa [List.nil_append] at this
  unfold Spec.dialogLog
  generalize o.senderChannel = peer
  generalize Spec.startLog id n p1 p2 o r ty io = T0 at *
  have j1 := j0.goes (es := all) ⟨_, _, _, hst⟩ (by rw [List.nil_append, hi]; exact List.nil_prefix)
  rw [List.nil_append] at j1
  obtain ⟨j2, e2⟩ := j1.takes (peer := peer) hx (by rw [hgs, List.nil_append, ho]; exact List.prefix_rfl)
  rw [hgs, List.nil_append, ho] at e2
  generalize T0 ++ turns.flatMap (Spec.turnBlock n peer) = T1 at *
  rw [show T1 ++ Spec.endLog n peer 0 = T1 ++ [.proc (.stdout n [])] ++
    [.sent (Spec.encode (Spec.eofMsg peer)), .sent (Spec.encode (Spec.closeMsg peer))] ++ [.proc (.exited n 0)] ++
    [.sent (Spec.encode (Spec.exitMsg peer 0))] by simp [Spec.endLog]]
  refine Spec.Joint.quiet (.session (Spec.Joint.quiet (.session j2 ?_ ?_ ?_) ?_) ?_ ?_ ?_) ?_
  · intro d hd
    cases hd
    rw [e2, List.append_nil]
    exact List.prefix_rfl
  · exact fun _ => ⟨rfl, e2⟩
  · intro x hx; cases hx
  · simp
  · intro d hd; cases hd
  · intro hd; cases hd
  · intro x hx
    cases hx
    exact ⟨rfl, rfl⟩
  · simp

/-! ### C117 -/

namespace Spec

/-- What a client gets if it takes a file from `w` as it is sent: a header, as many bytes as it says, and the byte 0
(this is how `scp -t` takes a file, see C109). -/
def Takes (w content : Bytes) : Prop :=
  ∃ hdr mode name more, w = hdr ++ (content ++ 0 :: more) ∧ Line hdr (content ++ 0 :: more) ∧
    HeaderLine hdr mode content.length name

end Spec

/-- C117 in full: what `scp -f` writes for a file that can be read is a header and the content such that a client
can take the file. -/
def C117_statement : Prop :=
  ∀ (os : Scp.Os) (path name content : Bytes), Spec.Works os → path.head? ≠ some 45 → Spec.FileName path name →
    Spec.Utf8 name → os.content path = (content, true) → ∀ w, ∃ s', Scp.start os [b! "-f", path] ⟨w, []⟩ = (ok (), s') ∧
      Spec.Takes (Spec.output s'.log) content

theorem line_sent {name hdr a b : Bytes} (hn : (10 : Byte) ∉ name) (hl : Spec.Line hdr a) (ha : a ≠ [])
    (h : Spec.sentHeader name ++ b = hdr ++ a) : hdr = Spec.sentHeader name := by
  obtain ⟨h1, h2⟩ := hl
  have h2 := h2.resolve_right ha
  obtain ⟨x, rfl⟩ := List.getLast?_eq_some_iff.mp h2
  rw [List.dropLast_concat] at h1
  have hs : Spec.sentHeader name = (b! "C0644 42 " ++ name) ++ [10] := by simp [Spec.sentHeader]
  have hy : (10 : Byte) ∉ b! "C0644 42 " ++ name := by
    rw [List.mem_append, not_or]
    exact ⟨by decide, hn⟩
  rw [hs] at h ⊢
  generalize b! "C0644 42 " ++ name = y at *
  rw [List.append_assoc, List.append_assoc] at h
  rcases List.append_eq_append_iff.mp h with ⟨c, e1, e2⟩ | ⟨c, e1, e2⟩
  · cases c with
    | nil => rw [e1, List.append_nil]
    | cons z c =>
      exfalso
      rw [List.cons_append] at e2
      injection e2 with e2 _
      exact h1 (by rw [e1, ← e2]; simp)
  · cases c with
    | nil => rw [e1, List.append_nil]
    | cons z c =>
      exfalso
      rw [List.cons_append] at e2
      injection e2 with e2 _
      exact hy (by rw [e1, ← e2]; simp)

/-- C117: no file can be fetched as it is sent. Whatever the path (without a newline), the content, the input of the
program, and whatever fails: a client that reads the header, as many bytes as it says and the byte 0 from what
`scp -f path` writes does not have the content of the file. -/
theorem C117_never {os : Scp.Os} {path w : Bytes} {r : R Scp.Err Unit} {s' : Scp.St} (hp : path.head? ≠ some 45)
    (hnl : (10 : Byte) ∉ path) (h : Scp.start os [b! "-f", path] ⟨w, []⟩ = (r, s')) :
    ¬ Spec.Takes (Spec.output s'.log) (os.content path).1 := by
  rintro ⟨hdr, mode, name, more, h1, h2, h3⟩
  rcases scp_sent hp h with h0 | ⟨nm, hn, ho⟩
  · rw [h0] at h1
    have := congrArg List.length h1
    simp at this
  · have hnn : (10 : Byte) ∉ nm := by
      obtain ⟨dir, tail, e, -⟩ := hn
      intro hm
      exact hnl (by rw [e]; simp [hm])
    obtain ⟨b, hb, hlen⟩ : ∃ b, Spec.output s'.log = Spec.sentHeader nm ++ b ∧ b.length ≤ (os.content path).1.length := by
      rcases ho with ho | ho
      · exact ⟨[], by rw [ho, List.append_nil], by simp⟩
      · exact ⟨_, ho, Nat.le_refl _⟩
    rw [hb] at h1
    obtain rfl := line_sent hnn h2 (by simp) h1
    have := congrArg List.length (List.append_cancel_left h1)
    simp at this
    omega

theorem C117_refuted : ¬ C117_statement := by
  intro h
  obtain ⟨s', h1, h2⟩ := h ⟨fun _ _ => true, fun _ => 0, fun _ => ([], true)⟩ (b! "a") (b! "a") [] (fun _ _ => rfl)
    (by decide) ⟨[], [], rfl, .inl rfl, by unfold Spec.Inside; decide, .nil⟩ (Utf8.valid_iff.mp (by decide +kernel)) rfl []
  exact C117_never (by decide) (by decide) h1 h2

/-- C117, what holds: a client gets into the example server, opens a channel and asks for a command of three words, a
program (which is `scp`), `-f` and a path. The program can be started, it takes what it is given, the file can be
read, and nothing that `scp` does fails. Then for every division of the header and the content into pieces of at
most 256 bytes, and all packets with data that the client sends between them, there are steps of the client such
that in every run of the server in which it takes these steps (there is one), whatever the other clients do, all of
this happens: session and program fit together, and the client decrypts exactly these pieces in order, the end of
the output and the exit status 0.

Missing: the header says 42 bytes whatever the file is, and there is no byte 0 after the content (`C117_never`). -/
theorem C117_fetched_partial {G : KeyGen} {E : Ed25519} {number : Bytes → Nat} {S : Sshd.Sys} {entropy : Nat → Byte}
    {bound : Bool} {cfg : Config} (hm : Sshd.main G E number S entropy bound = ok cfg) (s : IoSt)
    (hw : s.wcap = none) (hlen : s.inp.length + 4 < 2 ^ 64) {user n : Nat} {t0 : List Event} {k : Spec.Keys}
    {w rest : Bytes} (h : Spec.Entered cfg s.rng s.inp s.log user t0 k n w)
    {p1 p2 : Bytes} {o : Chan.Open} {r : Chan.Request} {command prog path name content : Bytes}
    {turns : List Spec.Turn} (hs : Spec.Arrive cfg.K k n (p1 :: p2 :: Spec.turnPackets turns) w rest)
    (h1 : Spec.Legal (.channel (.open o)) p1) (h2 : Spec.Legal (.channel (.request r)) p2)
    (hr : r.recipientChannel = 0) (hq : Spec.Asks r (.exec command))
    (hwords : Spec.Words command [prog, b! "-f", path]) (hpath : path.head? ≠ some 45)
    (hname : Spec.FileName path name) (hname' : Spec.Utf8 name)
    (hdata : ∀ p d, .gives p d ∈ turns → Spec.Legal (.channel (.data { recipientChannel := 0, data := d })) p)
    (hpieces : ∀ e d, .writes e d ∈ turns → e = false ∧ d ≠ [] ∧ d.length ≤ 256)
    (hall : (Spec.turnOutputs turns).flatten = b! "C0644 42 " ++ name ++ [10] ++ content)
    (hstart : S.start (s.log ++ t0 ++ [.received p1, .sent (Spec.encode (Spec.confirm 0 o)), .received p2])
      [prog, b! "-f", path] = true)
    (hwrite : ∀ log d, S.write log 0 d = ok d.length) (os : Scp.Os) (hos : Spec.Works os)
    (hcontent : os.content path = (content, true))
    (hc : Spec.Few (t0 ++ Spec.dialogLog 0 0 p1 p2 o r (.exec command) ⟨true, true, true⟩ turns 0)) :
    ∃ evs, (∀ w, Scp.start os [b! "-f", path] ⟨w, []⟩ = (ok (), ⟨w, evs⟩)) ∧
      Spec.Joint 0 evs 0 (Spec.dialogLog 0 0 p1 p2 o r (.exec command) ⟨true, true, true⟩ turns 0) evs ∧
      ∃ as st s', Spec.Smooth as ∧
        s'.log = s.log ++ (t0 ++ Spec.dialogLog 0 0 p1 p2 o r (.exec command) ⟨true, true, true⟩ turns 0) ∧
        (∃ hello w' k', s'.out = s.out ++ (hello ++ w') ∧
          ∀ (peer : ChaCha) (buf : Bytes) (sp : IoSt), Spec.keysOf peer = k' → peer.counter = 3 →
            35000 ≤ buf.length → sp.inp = w' →
            ∃ count, delivered cfg.K count peer buf sp = Spec.sentPayloads t0 ++
              ([Spec.confirm 0 o] ++ (if r.wantReply then [Spec.success o.senderChannel] else []) ++
                (Spec.turnOutputs turns).map (Spec.dataMsg o.senderChannel) ++
                [Spec.eofMsg o.senderChannel, Spec.closeMsg o.senderChannel,
                 Spec.exitMsg o.senderChannel 0]).map Spec.encode) ∧
        (∃ ops, (run cfg ops).running = true ∧ Spec.own 0 ops = some (s, as)) ∧
        ∀ ops i, (run cfg ops).running = true → Spec.own i ops = some (s, as) →
          (run cfg ops).conns[i]? = some ⟨.session user st, s'⟩ := by
  have hid := main_fits hm
  have hC : cfg.C = Sshd.connHandlers S := by rw [main_ok hm]
  refine ⟨fetchEvs path name content, scp_sends hos hpath hname hname' hcontent,
    joint_fetch rfl (fun e d hd => ⟨(hpieces e d hd).1, (hpieces e d hd).2.1⟩)
      (by rw [hall, output_fetch]; rfl) _ _ _ _ _ _ _ _, ?_⟩
  obtain ⟨as, st, s', e1, e2, ⟨hello, w', k', e3, -, e4⟩, e5, e6⟩ := C108_server cfg s user t0 k n w rest hid hw hlen h
    (p1 := p1) (p2 := p2) (o := o) (r := r) (q := .exec command) (ty := .exec command) (io := ⟨true, true, true⟩)
    (turns := turns) (status := 0) hs h1 h2 hr hq rfl
    (by
      rw [hC]
      exact ((C105_spawn S _ user (.exec command) _ rfl).1 _).mpr ⟨rfl, _, .exec hwords (by simp), hstart⟩)
    rfl
    (by
      intro x hx
      cases x with
      | gives p d => exact ⟨hdata p d hx, rfl⟩
      | writes e d => exact ⟨(hpieces e d hx).2.1, (hpieces e d hx).2.2, fun _ => rfl⟩)
    (fun log d => ⟨d.length, by rw [hC]; exact hwrite log d, Nat.le_refl _⟩) hc
  exact ⟨as, st, s', e1, e2, ⟨hello, w', k', e3, fun peer buf sp x1 x2 x3 x4 => ⟨_, e4 peer buf sp x1 x2 x3 x4⟩⟩, e5, e6⟩

/-- C117: in every session, whatever the client sends and whatever fails, what has been taken from `scp -f path`, the
process `n`, is a beginning of a header with the name of the file and its content. -/
theorem C117_taken {os : Scp.Os} {path w : Bytes} {r : R Scp.Err Unit} {s' : Scp.St}
    (hpath : path.head? ≠ some 45) (hrun : Scp.start os [b! "-f", path] ⟨w, []⟩ = (r, s'))
    {n : Nat} {status : UInt32} {t : List Event} {evs : List Scp.Ev} (hevs : evs <+: s'.log)
    (h : Spec.Joint n s'.log status t evs) (ht : Spec.procTaken n t ≠ []) :
    ∃ name, Spec.FileName path name ∧
      Spec.procTaken n t <+: b! "C0644 42 " ++ name ++ [10] ++ (os.content path).1 := by
  obtain ⟨-, p2⟩ := h.prefixes
  have hp : Spec.procTaken n t <+: Spec.output s'.log := by
    obtain ⟨tl, htl⟩ := hevs
    rw [← htl, output_append]
    exact p2.trans (List.prefix_append _ _)
  rcases scp_sent hpath hrun with h0 | ⟨nm, hn, ho⟩
  · rw [h0] at hp
    exact absurd (List.prefix_nil.mp hp) ht
  · refine ⟨nm, hn, hp.trans ?_⟩
    rcases ho with ho | ho
    · rw [ho]; exact List.prefix_append _ _
    · rw [ho]; exact List.prefix_rfl

/-! ### examples -/

/-- an operating system in which every file is `hello` -/
def helloOs : Scp.Os := ⟨fun _ _ => true, fun _ => 0, fun _ => (b! "hello", true)⟩

/-- a client that fetches a file -/
def scpFetch : Chan.Request where
  recipientChannel := 0
  ty := b! "exec"
  wantReply := true
  data := Spec.str (b! "scp -f dir/notes")

/-- the client sends a byte 0, the output is sent in two pieces -/
def fetchTurns : List Spec.Turn :=
  [.gives (dataPacket [0]).1 [0], .writes false (b! "C0644 42 no"), .writes false (b! "tes" ++ [10] ++ b! "hello")]

def fetchPayloads : List Bytes :=
  [Spec.encode (.serviceRequest ⟨b! "ssh-userauth"⟩), sshdRequest, demoP0, Spec.encode (.channel (.request scpFetch))] ++
  Spec.turnPackets fetchTurns

theorem fetch_entered :
    ∃ m, Spec.Entered sshdConfig (clientState fetchPayloads []).rng (clientState fetchPayloads []).inp
      [] 4 rootLog flatKeys 5 m ∧
      Spec.Arrive .flat flatKeys 5 (demoP0 :: Spec.encode (.channel (.request scpFetch)) ::
        Spec.turnPackets fetchTurns) m [] := by
  obtain ⟨c, s1, h1, h2, h3, h4⟩ := main_session fetchPayloads []
  obtain ⟨a, g1, g2⟩ := handshake_shakes (cfg := sshdConfig) (by decide) rfl h1
  obtain ⟨m, f1, f2⟩ := Spec.Arrive.append
    (a := [Spec.encode (.serviceRequest ⟨b! "ssh-userauth"⟩), sshdRequest])
    (b := demoP0 :: Spec.encode (.channel (.request scpFetch)) :: Spec.turnPackets fetchTurns)
    (conversation_stream [] fetchPayloads 3 (by decide +kernel))
  rw [← h4] at f1
  rw [h2, h3] at g2
  refine ⟨m, .mk (t := rootLog) g1 g2 ?_ f1, f2⟩
  refine .served (t := []) (legal_encode (show Spec.Fits (b! "ssh-userauth") by decide)) .nil
    (.accepted (.mk (.publicKey (legal_encode ⟨by decide, by decide, by decide, by decide, by decide +kernel⟩)
      (by decide +kernel)) ?_))
  simp only [sshdConfig, Sshd.handlers]
  rw [C92_anyone _ _ _ _ _ _ (Utf8.valid_iff.mp (by decide +kernel))
    ⟨by decide +kernel, by decide +kernel, by decide +kernel⟩]
  rfl

theorem fetch_name : Spec.FileName (b! "dir/notes") (b! "notes") :=
  ⟨b! "dir/", [], rfl, .inr rfl, by unfold Spec.Inside; decide, .nil⟩

/-- The file `dir/notes` is fetched. -/
example : ∃ evs ops st s', Scp.start helloOs [b! "-f", b! "dir/notes"] ⟨[0], []⟩ = (ok (), ⟨[0], evs⟩) ∧
    (run sshdConfig ops).conns[0]? = some ⟨.session 4 st, s'⟩ ∧
    Spec.Joint 0 evs 0 (Spec.dialogLog 0 0 demoP0 (Spec.encode (.channel (.request scpFetch))) demoOpen scpFetch
      (.exec (b! "scp -f dir/notes")) ⟨true, true, true⟩ fetchTurns 0) evs ∧
    s'.log = rootLog ++ Spec.dialogLog 0 0 demoP0 (Spec.encode (.channel (.request scpFetch))) demoOpen scpFetch
      (.exec (b! "scp -f dir/notes")) ⟨true, true, true⟩ fetchTurns 0 := by
  obtain ⟨m, h1, h2⟩ := fetch_entered
  obtain ⟨evs, e1, e3, as, st, s', -, e4, -, ⟨ops, e5, e6⟩, e7⟩ := C117_fetched_partial sshdConfig_main
    (clientState fetchPayloads []) rfl (by decide +kernel) h1 (turns := fetchTurns) (o := demoOpen)
    (r := scpFetch) (command := b! "scp -f dir/notes") (prog := b! "scp") (path := b! "dir/notes")
    (name := b! "notes") (content := b! "hello") h2
    (legal_encode demoOpen_wf) (legal_encode (show Spec.Fits _ by decide)) rfl ⟨1, by decide, .exec (by decide)⟩
    (words_iff.mp (by decide +kernel)) (by decide) fetch_name (Utf8.valid_iff.mp (by decide +kernel))
    (by
      intro p d hx
      simp only [fetchTurns, List.mem_cons, List.not_mem_nil, or_false, reduceCtorEq, Spec.Turn.gives.injEq] at hx
      obtain ⟨rfl, rfl⟩ := hx
      exact legal_encode (by show Spec.Fits _; decide))
    (by
      intro e d hx
      simp only [fetchTurns, List.mem_cons, List.not_mem_nil, or_false, reduceCtorEq, false_or,
        Spec.Turn.writes.injEq] at hx
      rcases hx with ⟨rfl, rfl⟩ | ⟨rfl, rfl⟩ <;> decide)
    rfl rfl (fun _ _ => rfl) helloOs (fun _ _ => rfl) rfl (by unfold Spec.Few; decide +kernel)
  exact ⟨evs, ops, st, s', e1 [0], e7 ops 0 e5 e6, e3, e4⟩

/-- The hypotheses of `C117_never` and of `C117_taken`: the first piece has been taken. Also, the file that is
fetched without the byte 0 of the protocol is there. -/
example : ∃ s', Scp.start helloOs [b! "-f", b! "dir/notes"] ⟨[0], []⟩ = (ok (), s') ∧
    Spec.output s'.log = b! "C0644 42 notes" ++ [10] ++ b! "hello" ∧
    ¬ Spec.Takes (Spec.output s'.log) (b! "hello") ∧
    ∃ t, Spec.Joint 0 s'.log 0 t s'.log ∧ Spec.procTaken 0 t ≠ [] := by
  have h := scp_sends (os := helloOs) (fun _ _ => rfl) (path := b! "dir/notes") (content := b! "hello") (by decide)
    fetch_name (Utf8.valid_iff.mp (by decide +kernel)) rfl [0]
  refine ⟨_, h, by decide, C117_never (by decide) (by decide) h, _, joint_fetch (turns := fetchTurns) rfl ?_ rfl 0 [] []
    demoOpen scpFetch .shell ⟨true, true, true⟩ 0, by decide +kernel⟩
  intro e d hx
  simp only [fetchTurns, List.mem_cons, List.not_mem_nil, or_false, reduceCtorEq, false_or,
    Spec.Turn.writes.injEq] at hx
  rcases hx with ⟨rfl, rfl⟩ | ⟨rfl, rfl⟩ <;> decide

end Nora
