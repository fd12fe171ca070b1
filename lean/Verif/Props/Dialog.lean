import Verif.Props.Wire
/-
C108: a client and a program that the server has started can talk to each other: what the client sends as data
is given to the program, what the program writes is sent to the client, in any order.
-/
namespace Nora
open R Server

namespace Spec

/-- What happens while a program runs. -/
inductive Turn where
  /-- the packet `p` with the data `d` arrives, and `d` is given to the program -/
  | gives (p d : Bytes)
  /-- the program writes `d`, to standard error if `err` -/
  | writes (err : Bool) (d : Bytes)
  deriving DecidableEq

/-- the events of the session, for the process `n` -/
def turnBlock (n : Nat) (peer : UInt32) : Turn → List Event
  | .gives p d => [.received p, .proc (.stdin n d)]
  | .writes e d => [.proc (if e then .stderr n d else .stdout n d), .sent (encode (dataMsg peer d))]

/-- the data is sent for the channel `id`, to a program with a standard input; output is at most 256 bytes, and
there is a standard error -/
def TurnOk (id : UInt32) (io : IoSet) : Turn → Prop
  | .gives p d => Legal (.channel (.data { recipientChannel := id, data := d })) p ∧ io.stdin = true
  | .writes e d => d ≠ [] ∧ d.length ≤ 256 ∧ (e = true → io.stderr = true)

/-- The start of a program: the packet `p1` with the CHANNEL_OPEN `o`, for which the channel `id` is opened, and
the packet `p2` with the request `r`, for which the process `n` is started with the streams `io`. -/
def startLog (id : UInt32) (n : Nat) (p1 p2 : Bytes) (o : Chan.Open) (r : Chan.Request) (ty : SpawnType)
    (io : IoSet) : List Event :=
  [.received p1, .sent (encode (confirm id o))] ++
  (.received p2 :: .proc (.spawn ty n) :: .proc (.started n io.stdin io.stdout io.stderr) ::
    replyIf r.wantReply (success o.senderChannel))

/-- the end of a program -/
def endLog (n : Nat) (peer : UInt32) (status : UInt32) : List Event :=
  [.proc (.stdout n []), .sent (encode (eofMsg peer)), .sent (encode (closeMsg peer)),
   .proc (.exited n status), .sent (encode (exitMsg peer status))]

/-- a program from its start to its end -/
def dialogLog (id : UInt32) (n : Nat) (p1 p2 : Bytes) (o : Chan.Open) (r : Chan.Request) (ty : SpawnType)
    (io : IoSet) (turns : List Turn) (status : UInt32) : List Event :=
  startLog id n p1 p2 o r ty io ++ turns.flatMap (turnBlock n o.senderChannel) ++ endLog n o.senderChannel status

/-- the packets of the client -/
def turnPackets (turns : List Turn) : List Bytes :=
  turns.filterMap fun x => match x with
    | .gives p _ => some p
    | .writes _ _ => none

/-- what the program writes, in pieces -/
def turnOutputs (turns : List Turn) : List Bytes :=
  turns.filterMap fun x => match x with
    | .gives _ _ => none
    | .writes _ d => some d

/-- what the client gets -/
def dialogReplies (id : UInt32) (o : Chan.Open) (r : Chan.Request) (turns : List Turn) (status : UInt32) :
    List Message :=
  [confirm id o] ++ (if r.wantReply then [success o.senderChannel] else []) ++
  (turnOutputs turns).map (dataMsg o.senderChannel) ++
  [eofMsg o.senderChannel, closeMsg o.senderChannel, exitMsg o.senderChannel status]

/-- what can happen after `t`, if nothing is interrupted -/
inductive Onward (H : ConnHandlers) (user : Nat) (l0 t : List Event) : List Event → Prop
  | refl : Onward H user l0 t []
  | snoc {b c} : Onward H user l0 t b → Block H user (fun _ => False) l0 (t ++ b) c →
    Onward H user l0 t (b ++ c)

end Spec

section
variable {H : ConnHandlers} {user : Nat} {l0 t b c : List Event}

theorem Spec.Onward.trans (h : Spec.Onward H user l0 t b) (h' : Spec.Onward H user l0 (t ++ b) c) :
    Spec.Onward H user l0 t (b ++ c) := by
  induction h' with
  | refl => rw [List.append_nil]; exact h
  | snoc _ hb ih =>
    rw [← List.append_assoc]
    exact .snoc ih (by rw [← List.append_assoc]; exact hb)

theorem Spec.Onward.one (h : Spec.Block H user (fun _ => False) l0 t b) : Spec.Onward H user l0 t b := by
  have := Spec.Onward.snoc (.refl : Spec.Onward H user l0 t []) (c := b) (by rw [List.append_nil]; exact h)
  rwa [List.nil_append] at this

theorem Spec.Trace.onward (h : Spec.Trace H user (fun _ => False) l0 t) (h' : Spec.Onward H user l0 t b) :
    Spec.Trace H user (fun _ => False) l0 (t ++ b) := by
  induction h' with
  | refl => rw [List.append_nil]; exact h
  | snoc _ hb ih => rw [← List.append_assoc]; exact .snoc ih hb

theorem Reaches.onward {K : Crypto} {a : Authenticated} {sched : List Client.Step} {s : IoSt} {ps : List Bytes}
    {rest : Bytes} (hw : s.wcap = none)
    (hs : Spec.Arrive K (Spec.keysOf a.receive) a.receive.counter.toNat ps s.inp rest)
    (h : Reaches K H user a s sched t) (hb : Spec.Onward H user s.log t b)
    (hc : Spec.Fresh a (t ++ b)) (hp : Spec.payloads (t ++ b) <+: ps) :
    Reaches K H user a s sched (t ++ b) := by
  induction hb with
  | refl => rw [List.append_nil]; exact h
  | snoc _ hb ih =>
    rw [← List.append_assoc] at hc hp ⊢
    exact (ih hc.before (payloads_left hp)).block hw hs hb hc hp

/-- While a program runs: its output is read, its input goes to the channel `id`. -/
structure Talks (io : IoSet) (id : UInt32) (n : Nat) (peer : UInt32) (t : List Event) : Prop where
  started : .proc (.started n io.stdin io.stdout io.stderr) ∈ t
  out : .proc (.stdout n []) ∉ t
  err : .proc (.stderr n []) ∉ t
  exited : ∀ status, .proc (.exited n status) ∉ t
  home : (Spec.view t).homes n = some peer
  peers : (Spec.view t).peers id = some peer
  stdin : io.stdin = true → (Spec.view t).stdins id = some n

theorem Talks.after {io : IoSet} {id : UInt32} {n : Nat} {peer : UInt32} (h : Talks io id n peer t)
    (hv : Spec.view (t ++ b) = Spec.view t)
    (hb : ∀ e ∈ b, e ≠ .proc (.stdout n []) ∧ e ≠ .proc (.stderr n []) ∧ ∀ status, e ≠ .proc (.exited n status)) :
    Talks io id n peer (t ++ b) := by
  refine ⟨List.mem_append_left _ h.started, fun hm => ?_, fun hm => ?_, fun st hm => ?_, by rw [hv]; exact h.home,
    by rw [hv]; exact h.peers, by rw [hv]; exact h.stdin⟩
  · exact (List.mem_append.mp hm).elim h.out fun hm => (hb _ hm).1 rfl
  · exact (List.mem_append.mp hm).elim h.err fun hm => (hb _ hm).2.1 rfl
  · exact (List.mem_append.mp hm).elim (h.exited st) fun hm => (hb _ hm).2.2 st rfl

theorem view_turn {io : IoSet} {id : UInt32} {n : Nat} {peer : UInt32} {x : Spec.Turn}
    (hx : Spec.TurnOk id io x) : Spec.view (t ++ Spec.turnBlock n peer x) = Spec.view t := by
  cases x with
  | gives p d =>
    rw [show t ++ Spec.turnBlock n peer (.gives p d) = t ++ [.received p] ++ [.proc (.stdin n d)] by
      simp [Spec.turnBlock], view_snoc, view_snoc]
    simp only [Spec.View.next, hx.1.msgOf rfl, Option.elim, Spec.View.receive]
  | writes e d =>
    have hwf : Spec.WF (Spec.dataMsg peer d) := by
      show Spec.Fits d
      unfold Spec.Fits
      have := hx.2.1
      omega
    rw [show t ++ Spec.turnBlock n peer (.writes e d) =
      t ++ [.proc (if e then .stderr n d else .stdout n d)] ++ [.sent (Spec.encode (Spec.dataMsg peer d))] by
      simp [Spec.turnBlock], view_snoc, view_snoc]
    cases e <;> simp only [Spec.View.next, msgOf_encode (m := Spec.dataMsg peer d) rfl hwf, Option.elim] <;> rfl

theorem onward_turns {io : IoSet} {id : UInt32} {n : Nat} {peer : UInt32} {turns : List Spec.Turn}
    (h : Talks io id n peer t) (hout : io.stdout = true) (hx : ∀ x ∈ turns, Spec.TurnOk id io x)
    (hwr : ∀ log d, ∃ k, H.write log n d = ok k ∧ d.length ≤ k) :
    Spec.Onward H user l0 t (turns.flatMap (Spec.turnBlock n peer)) ∧
      Talks io id n peer (t ++ turns.flatMap (Spec.turnBlock n peer)) := by
  induction turns generalizing t with
  | nil => exact ⟨.refl, by rw [List.flatMap_nil, List.append_nil]; exact h⟩
  | cons x turns ih =>
    have hx1 := hx _ List.mem_cons_self
    have hb : Spec.Block H user (fun _ => False) l0 t (Spec.turnBlock n peer x) := by
      cases x with
      | gives p d =>
        obtain ⟨k, h1, h2⟩ := hwr (l0 ++ t ++ [.received p]) d
        have := Spec.Reaction.data (H := H) (user := user) (l0 := l0) (t := t) (n := n) hx1.1
          (by rw [h.peers]; simp) (h.stdin hx1.2) h1
        rw [List.take_of_length_le h2] at this
        exact .packet this
      | writes e d =>
        cases e with
        | false => exact .stdout ⟨⟨_, _, by rw [← hout]; exact h.started⟩, h.out⟩ h.home hx1.1 hx1.2.1
        | true =>
          exact .stderr ⟨⟨_, _, by rw [← hx1.2.2 rfl]; exact h.started⟩, h.err⟩ h.home hx1.1 hx1.2.1
    have ht := h.after (b := Spec.turnBlock n peer x) (view_turn hx1) (by
      intro e he
      cases x with
      | gives p d =>
        simp only [Spec.turnBlock, List.mem_cons, List.not_mem_nil, or_false] at he
        rcases he with rfl | rfl <;> simp
      | writes e d =>
        have hd : d ≠ [] := hx1.1
        simp only [Spec.turnBlock, List.mem_cons, List.not_mem_nil, or_false] at he
        rcases he with rfl | rfl
        · cases e <;> simp [hd]
        · simp)
    obtain ⟨g1, g2⟩ := ih ht fun y hy => hx y (List.mem_cons_of_mem _ hy)
    rw [List.flatMap_cons]
    exact ⟨(Spec.Onward.one hb).trans g1, by rw [← List.append_assoc]; exact g2⟩

theorem onward_start {p1 p2 : Bytes} {o : Chan.Open} {r : Chan.Request} {q : SessionRequest} {ty : SpawnType}
    {id : UInt32} {io : IoSet}
    (hbound : ∀ e ∈ t, ∀ m, marks e = some m → m < (Spec.view t).procs)
    (h1 : Spec.Legal (.channel (.open o)) p1) (h2 : Spec.Legal (.channel (.request r)) p2)
    (hid : Spec.LeastFree (Spec.view t) id) (hr : r.recipientChannel = id) (hq : Spec.Asks r q)
    (hty : Spec.runs q = some ty)
    (hspawn : H.spawn (l0 ++ (t ++ [.received p1, .sent (Spec.encode (Spec.confirm id o))]) ++
      [.received p2]) user ty = ok io) :
    Spec.Onward H user l0 t (Spec.startLog id (Spec.view t).procs p1 p2 o r ty io) ∧
      Talks io id (Spec.view t).procs o.senderChannel (t ++ Spec.startLog id (Spec.view t).procs p1 p2 o r ty io) := by
  generalize hn : (Spec.view t).procs = n at hbound ⊢
  have fits : Spec.msgOf (Spec.encode (Spec.confirm id o)) = some (Spec.confirm id o) :=
    msgOf_encode rfl (wf_confirm _ _)
  have hrep : ∀ x, .proc x ∉ Spec.replyIf r.wantReply (Spec.success o.senderChannel) := by
    intro x
    cases r.wantReply <;> simp [Spec.replyIf]
  generalize hL0 : t ++ [.received p1, .sent (Spec.encode (Spec.confirm id o))] = t1
  have hv1 : Spec.view t1 = { Spec.view t with
      peers := Spec.set (Spec.view t).peers id (some o.senderChannel)
      stdins := Spec.set (Spec.view t).stdins id none } := by
    rw [← hL0, show t ++ [.received p1, .sent (Spec.encode (Spec.confirm id o))] =
      t ++ [.received p1] ++ [.sent (Spec.encode (Spec.confirm id o))] by simp, view_snoc, view_snoc]
    simp only [Spec.View.next, h1.msgOf rfl, Option.elim, Spec.View.receive, fits]
    rfl
  have hn1 : (Spec.view t1).procs = n := by rw [hv1]; exact hn
  have hpeer : (Spec.view t1).peers r.recipientChannel = some o.senderChannel := by
    rw [hv1, hr]; simp [Spec.set]
  have hstdin : (Spec.view t1).stdins r.recipientChannel = none := by
    rw [hv1, hr]; simp [Spec.set]
  have hb1 : ∀ e ∈ t1, ∀ m, marks e = some m → m < n := by
    intro e he m hm
    rw [← hL0] at he
    rcases List.mem_append.mp he with he | he
    · exact hbound e he m hm
    · simp at he
      rcases he with rfl | rfl <;> cases hm
  have hrun := Spec.Reaction.run (l0 := l0) h2 hpeer hq hty (by rw [← hL0]; exact hspawn)
  rw [hstdin, hn1] at hrun
  constructor
  · refine (Spec.Onward.one (.packet (.opened h1 hid))).trans (.one (.packet ?_))
    rw [hL0]
    exact hrun
  · rw [Spec.startLog, ← List.append_assoc, hL0]
    have hmem : ∀ e ∈ t1 ++ (.received p2 :: .proc (.spawn ty n) ::
        .proc (.started n io.stdin io.stdout io.stderr) ::
        Spec.replyIf r.wantReply (Spec.success o.senderChannel)), marks e = some n →
        e = .proc (.started n io.stdin io.stdout io.stderr) := by
      intro e he hm
      rcases List.mem_append.mp he with he | he
      · exact absurd (hb1 e he n hm) (Nat.lt_irrefl n)
      · simp only [List.mem_cons] at he
        rcases he with rfl | rfl | rfl | he
        · cases hm
        · cases hm
        · rfl
        · cases e with
          | proc x => exact absurd he (hrep x)
          | _ => cases hm
    have hvr : ∀ u, Spec.view (u ++ Spec.replyIf r.wantReply (Spec.success o.senderChannel)) = Spec.view u := by
      intro u
      cases r.wantReply with
      | false => rw [show Spec.replyIf false (Spec.success o.senderChannel) = [] from rfl, List.append_nil]
      | true =>
        rw [show Spec.replyIf true (Spec.success o.senderChannel) =
          [.sent (Spec.encode (Spec.success o.senderChannel))] from rfl, view_snoc]
        simp only [Spec.View.next, msgOf_encode (m := Spec.success o.senderChannel) rfl trivial, Option.elim]
        rfl
    have hv : Spec.view (t1 ++ (.received p2 :: .proc (.spawn ty n) ::
        .proc (.started n io.stdin io.stdout io.stderr) ::
        Spec.replyIf r.wantReply (Spec.success o.senderChannel))) =
        { Spec.view t1 with
          current := some id
          procs := n + 1
          homes := Spec.set (Spec.view t1).homes n (some o.senderChannel)
          stdins := Spec.set (Spec.view t1).stdins id (if io.stdin then some n else none) } := by
      rw [show t1 ++ (.received p2 :: .proc (.spawn ty n) ::
        .proc (.started n io.stdin io.stdout io.stderr) ::
        Spec.replyIf r.wantReply (Spec.success o.senderChannel)) = (t1 ++ [.received p2] ++ [.proc (.spawn ty n)] ++
        [.proc (.started n io.stdin io.stdout io.stderr)]) ++
        Spec.replyIf r.wantReply (Spec.success o.senderChannel) by simp, hvr, view_snoc, view_snoc, view_snoc]
      simp only [Spec.View.next, h2.msgOf rfl, Option.elim, Spec.View.receive, Option.bind, hr, hn1]
      rw [← hr, hpeer]
    refine ⟨by simp, fun hm => ?_, fun hm => ?_, fun st hm => ?_, ?_, ?_, fun hi => ?_⟩
    · cases hmem _ hm rfl
    · cases hmem _ hm rfl
    · cases hmem _ hm rfl
    · rw [hv]; simp [Spec.set]
    · rw [hv]; rw [← hr]; exact hpeer
    · rw [hv]; simp [Spec.set, hi]

theorem onward_end {io : IoSet} {id : UInt32} {n : Nat} {peer : UInt32} (h : Talks io id n peer t)
    (hout : io.stdout = true) (status : UInt32) : Spec.Onward H user l0 t (Spec.endLog n peer status) := by
  have hr : Spec.Reading t n := ⟨⟨_, _, by rw [← hout]; exact h.started⟩, h.out⟩
  refine Spec.Onward.trans (b := [.proc (.stdout n []), .sent (Spec.encode (Spec.eofMsg peer)),
    .sent (Spec.encode (Spec.closeMsg peer))]) (.one (.stdoutEnd hr h.home))
    (.one (.exit ⟨⟨_, _, _, List.mem_append_left _ h.started, by rw [hout]; rfl⟩, fun st hm => ?_⟩ ?_))
  · rcases List.mem_append.mp hm with hm | hm
    · exact h.exited st hm
    · simp at hm
  · rw [homes_append (by intro ty' m hm; simp at hm)]
    exact h.home

/-- a program can run from its start to its end -/
theorem onward_dialog {p1 p2 : Bytes} {o : Chan.Open} {r : Chan.Request} {q : SessionRequest} {ty : SpawnType}
    {id : UInt32} {io : IoSet} {turns : List Spec.Turn} {status : UInt32}
    (hbound : ∀ e ∈ t, ∀ m, marks e = some m → m < (Spec.view t).procs)
    (h1 : Spec.Legal (.channel (.open o)) p1) (h2 : Spec.Legal (.channel (.request r)) p2)
    (hid : Spec.LeastFree (Spec.view t) id) (hr : r.recipientChannel = id) (hq : Spec.Asks r q)
    (hty : Spec.runs q = some ty)
    (hspawn : H.spawn (l0 ++ (t ++ [.received p1, .sent (Spec.encode (Spec.confirm id o))]) ++
      [.received p2]) user ty = ok io)
    (hout : io.stdout = true) (hx : ∀ x ∈ turns, Spec.TurnOk id io x)
    (hwr : ∀ log d, ∃ k, H.write log (Spec.view t).procs d = ok k ∧ d.length ≤ k) :
    Spec.Onward H user l0 t (Spec.dialogLog id (Spec.view t).procs p1 p2 o r ty io turns status) := by
  obtain ⟨g1, g2⟩ := onward_start (H := H) (user := user) hbound h1 h2 hid hr hq hty hspawn
  obtain ⟨g3, g4⟩ := onward_turns (H := H) (user := user) (l0 := l0) g2 hout hx hwr
  refine (g1.trans g3).trans ?_
  rw [← List.append_assoc]
  exact onward_end g4 hout status

theorem received_turns (n : Nat) (peer : UInt32) (turns : List Spec.Turn) :
    Spec.payloads (turns.flatMap (Spec.turnBlock n peer)) = Spec.turnPackets turns := by
  induction turns with
  | nil => rfl
  | cons x turns ih =>
    rw [List.flatMap_cons, payloads_append, ih]
    cases x <;> rfl

theorem sent_turns (n : Nat) (peer : UInt32) (turns : List Spec.Turn) :
    Spec.sentPayloads (turns.flatMap (Spec.turnBlock n peer)) =
      ((Spec.turnOutputs turns).map (Spec.dataMsg peer)).map Spec.encode := by
  induction turns with
  | nil => rfl
  | cons x turns ih =>
    rw [List.flatMap_cons, sentPayloads_append, ih]
    cases x <;> rfl

theorem received_dialog (id : UInt32) (n : Nat) (p1 p2 : Bytes) (o : Chan.Open) (r : Chan.Request)
    (ty : SpawnType) (io : IoSet) (turns : List Spec.Turn) (status : UInt32) :
    Spec.payloads (Spec.dialogLog id n p1 p2 o r ty io turns status) = p1 :: p2 :: Spec.turnPackets turns := by
  unfold Spec.dialogLog
  rw [payloads_append, payloads_append, received_turns]
  unfold Spec.startLog
  rw [show Spec.payloads (Spec.endLog n o.senderChannel status) = [] from rfl, List.append_nil]
  cases r.wantReply <;> rfl

theorem sent_dialog (id : UInt32) (n : Nat) (p1 p2 : Bytes) (o : Chan.Open) (r : Chan.Request)
    (ty : SpawnType) (io : IoSet) (turns : List Spec.Turn) (status : UInt32) :
    Spec.sentPayloads (Spec.dialogLog id n p1 p2 o r ty io turns status) =
      (Spec.dialogReplies id o r turns status).map Spec.encode := by
  unfold Spec.dialogLog Spec.dialogReplies Spec.startLog Spec.endLog
  simp only [sentPayloads_append, sent_turns, List.map_append]
  cases r.wantReply <;> simp [Spec.sentPayloads, Spec.replyIf]

end

/-! ### in a session -/

/-- C108: In any session that was never interrupted and on which writes succeed, if the next two packets of the
client are a CHANNEL_OPEN and a request to run something on the channel that is opened for it (the least number
not in use), and the handler `spawn` succeeds and gives a standard output, then client and program can talk to
each other in any way: for any sequence of turns, in which packets with data arrive and the program writes
pieces of 1 to 256 bytes, and any exit status, the session can go on and do all of this, in this order. The
program is given all of the data, in order (if the handler takes what it is given), and whoever decrypts what was
written gets exactly the confirmation, the success (if it was wanted), the output in order, EOF, CLOSE and the
exit status, after the messages that were sent before. -/
theorem C108_dialog {K : Crypto} {H : ConnHandlers} {user : Nat} {a : Authenticated} {sched : List Client.Step}
    {s s' : IoSt} {t : List Event} {ps : List Bytes} {rest : Bytes} {st : Client.St}
    (hrun : Client.steps K H user (Client.start a) sched s = (ok (.inl st), s'))
    (hl : s'.log = s.log ++ t) (hsm : Spec.Smooth sched) (hw : s.wcap = none)
    (hs : Spec.Arrive K (Spec.keysOf a.receive) a.receive.counter.toNat ps s.inp rest)
    {p1 p2 : Bytes} {o : Chan.Open} {r : Chan.Request} {q : SessionRequest} {ty : SpawnType} {id : UInt32}
    {io : IoSet} {turns : List Spec.Turn} {status : UInt32}
    (hps : Spec.payloads t ++ p1 :: p2 :: Spec.turnPackets turns <+: ps)
    (h1 : Spec.Legal (.channel (.open o)) p1) (h2 : Spec.Legal (.channel (.request r)) p2)
    (hid : Spec.LeastFree (Spec.view t) id) (hr : r.recipientChannel = id) (hq : Spec.Asks r q)
    (hty : Spec.runs q = some ty)
    (hspawn : H.spawn (s.log ++ (t ++ [.received p1, .sent (Spec.encode (Spec.confirm id o))]) ++
      [.received p2]) user ty = ok io)
    (hout : io.stdout = true) (hx : ∀ x ∈ turns, Spec.TurnOk id io x)
    (hwr : ∀ log d, ∃ k, H.write log (Spec.view t).procs d = ok k ∧ d.length ≤ k)
    (hc : Spec.Fresh a (t ++ Spec.dialogLog id (Spec.view t).procs p1 p2 o r ty io turns status)) :
    ∃ more st2 s2, Spec.Smooth (sched ++ more) ∧
      Client.steps K H user (Client.start a) (sched ++ more) s = (ok (.inl st2), s2) ∧
      s2.log = s.log ++ (t ++ Spec.dialogLog id (Spec.view t).procs p1 p2 o r ty io turns status) ∧
      ∃ w, s2.out = s.out ++ w ∧ Spec.Stream K (Spec.keysOf a.send) a.send.counter.toNat
        (Spec.sentPayloads t ++ (Spec.dialogReplies id o r turns status).map Spec.encode) w [] := by
  obtain ⟨_, hg⟩ := good_of hrun hl
  have hbound := hg.agrees.bound
  rw [← hg.agrees.procs] at hbound
  have h0 : Reaches K H user a s sched t := ⟨[], st, s', by rwa [List.append_nil], by rwa [List.append_nil], hl⟩
  obtain ⟨more, st2, s2, k1, k2, k3⟩ := h0.onward hw hs
    (onward_dialog (status := status) hbound h1 h2 hid hr hq hty hspawn hout hx hwr) hc
    (by rw [payloads_append, received_dialog]; exact hps)
  refine ⟨more, st2, s2, k1, k2, k3, ?_⟩
  obtain ⟨w, k4, k5, -⟩ := C60_written k2 (fun n => k1.not_drops (by simp)) k3
  refine ⟨w, k4, ?_⟩
  rw [sentPayloads_append, sent_dialog] at k5
  exact k5

/-! ### from the first byte of a connection -/

/-- anything that the specification of a session allows can happen after a client got in, and then exactly
the bytes of the specification have been sent -/
theorem server_onward (cfg : Config) (s : IoSt) (user : Nat) (t0 t : List Event) (k : Spec.Keys) (n : Nat)
    (w rest : Bytes) (hid : Spec.Fits cfg.ident) (hw : s.wcap = none) (hlen : s.inp.length + 4 < 2 ^ 64)
    (h : Spec.Entered cfg s.rng s.inp s.log user t0 k n w)
    (hs : Spec.Arrive cfg.K k n (Spec.payloads t) w rest)
    (ht : Spec.Onward cfg.C user (s.log ++ t0) [] t) (hc : Spec.Few (t0 ++ t)) :
    ∃ as st s', Spec.Smooth as ∧ s'.log = s.log ++ (t0 ++ t) ∧
      (∃ hello w' k', s'.out = s.out ++ (hello ++ w') ∧
        Spec.OnWire cfg s.rng s.inp (Spec.sentPayloads t0 ++ Spec.sentPayloads t) hello w' k' s'.rng ∧
        ∀ (peer : ChaCha) (buf : Bytes) (sp : IoSt), Spec.keysOf peer = k' → peer.counter = 3 →
          35000 ≤ buf.length → sp.inp = w' →
          delivered cfg.K ((Spec.sentPayloads t0).length + (Spec.sentPayloads t).length) peer buf sp =
            Spec.sentPayloads t0 ++ Spec.sentPayloads t) ∧
      (∃ ops, (run cfg ops).running = true ∧ Spec.own 0 ops = some (s, as)) ∧
      ∀ ops i, (run cfg ops).running = true → Spec.own i ops = some (s, as) →
        (run cfg ops).conns[i]? = some ⟨.session user st, s'⟩ := by
  have hopen := Spec.Open.mk h hs (by
    have := Spec.Trace.onward .nil ht
    rwa [List.nil_append] at this)
  obtain ⟨as, st, s', g1, g2, g3⟩ := (alone_open hid hw hlen hc).mpr hopen
  have hne : (Spec.alone cfg s as).phase ≠ .ended := by rw [g2]; simp
  obtain ⟨f1, f2⟩ := run_solo (cfg := cfg) s as hne
  refine ⟨as, st, s', g1, g3, ?_, ⟨_, by rw [f1], f2⟩, fun ops i hrun hown => by
    rw [C51_isolated_partial cfg ops hrun i, hown, Option.map_some, g2]⟩
  obtain ⟨hello, w', k', d1, d2⟩ := C103_wire cfg hid _ 0 ⟨.session user st, s'⟩ s as _ (by rw [f1, g2]; rfl) f2
    hw (fun ⟨n, e, he⟩ => absurd (g1 _ _ he) (by simp)) (by simp) (by simp) g3
  have hsent : Spec.sentPayloads (t0 ++ t) = Spec.sentPayloads t0 ++ Spec.sentPayloads t := sentPayloads_append _ _
  rw [hsent] at d2
  refine ⟨hello, w', k', d1, d2, fun peer buf sp hk hn hb hi => ?_⟩
  have hfew := hc
  unfold Spec.Few at hfew
  rw [hsent, List.length_append] at hfew
  have := C103_decrypted cfg _ _ _ _ _ _ _ d2 (by rw [List.length_append]; omega) peer buf sp hk hn hb hi
  rwa [List.length_append] at this

/-- C108: the same from the first byte of the connection. If the bytes that a client sends get it in as `user`
and the next packets are a CHANNEL_OPEN, a request to run something on the channel 0, and the data of the turns,
then there are steps of the client such that in every run of the server in which it takes these steps (there is
one), whatever the other clients do, all of this happens and nothing else, exactly the bytes have been sent that
the specification says, and whoever has the key decrypts the replies. -/
theorem C108_server (cfg : Config) (s : IoSt) (user : Nat) (t0 : List Event) (k : Spec.Keys) (n : Nat)
    (w rest : Bytes) (hid : Spec.Fits cfg.ident) (hw : s.wcap = none) (hlen : s.inp.length + 4 < 2 ^ 64)
    (h : Spec.Entered cfg s.rng s.inp s.log user t0 k n w)
    {p1 p2 : Bytes} {o : Chan.Open} {r : Chan.Request} {q : SessionRequest} {ty : SpawnType}
    {io : IoSet} {turns : List Spec.Turn} {status : UInt32}
    (hs : Spec.Arrive cfg.K k n (p1 :: p2 :: Spec.turnPackets turns) w rest)
    (h1 : Spec.Legal (.channel (.open o)) p1) (h2 : Spec.Legal (.channel (.request r)) p2)
    (hr : r.recipientChannel = 0) (hq : Spec.Asks r q) (hty : Spec.runs q = some ty)
    (hspawn : cfg.C.spawn (s.log ++ t0 ++ [.received p1, .sent (Spec.encode (Spec.confirm 0 o)), .received p2])
      user ty = ok io)
    (hout : io.stdout = true) (hx : ∀ x ∈ turns, Spec.TurnOk 0 io x)
    (hwr : ∀ log d, ∃ k, cfg.C.write log 0 d = ok k ∧ d.length ≤ k)
    (hc : Spec.Few (t0 ++ Spec.dialogLog 0 0 p1 p2 o r ty io turns status)) :
    ∃ as st s', Spec.Smooth as ∧ s'.log = s.log ++ (t0 ++ Spec.dialogLog 0 0 p1 p2 o r ty io turns status) ∧
      (∃ hello w' k', s'.out = s.out ++ (hello ++ w') ∧
        Spec.OnWire cfg s.rng s.inp
          (Spec.sentPayloads t0 ++ (Spec.dialogReplies 0 o r turns status).map Spec.encode) hello w' k' s'.rng ∧
        ∀ (peer : ChaCha) (buf : Bytes) (sp : IoSt), Spec.keysOf peer = k' → peer.counter = 3 →
          35000 ≤ buf.length → sp.inp = w' →
          delivered cfg.K ((Spec.sentPayloads t0).length + (Spec.dialogReplies 0 o r turns status).length) peer
            buf sp = Spec.sentPayloads t0 ++ (Spec.dialogReplies 0 o r turns status).map Spec.encode) ∧
      (∃ ops, (run cfg ops).running = true ∧ Spec.own 0 ops = some (s, as)) ∧
      ∀ ops i, (run cfg ops).running = true → Spec.own i ops = some (s, as) →
        (run cfg ops).conns[i]? = some ⟨.session user st, s'⟩ := by
  have := server_onward cfg s user t0 (Spec.dialogLog 0 0 p1 p2 o r ty io turns status) k n w rest hid hw hlen h
    (by rw [received_dialog]; exact hs)
    (onward_dialog (t := []) (id := 0) (q := q) (by simp) h1 h2 ⟨rfl, fun j hj => absurd hj (Nat.not_lt_zero _)⟩ hr
      hq hty (by rw [← hspawn]; simp) hout hx hwr) hc
  rw [sent_dialog, List.length_map] at this
  exact this

/-! ### an example: the command "cat" -/

/-- a client that sends "ab" and "c" to `cat` -/
private def catTurns : List Spec.Turn :=
  [.gives (Spec.encode (Spec.dataMsg 0 (b! "ab"))) (b! "ab"), .writes false (b! "ab"),
   .gives (Spec.encode (Spec.dataMsg 0 (b! "c"))) (b! "c"), .writes false (b! "c")]

private def catState : IoSt :=
  clientState entryPayloads (conversation 5 (demoP0 :: demoP1 :: Spec.turnPackets catTurns) ++ [])

example : ∃ ops st s', (run wholeConfig ops).conns[0]? = some ⟨.session 1000 st, s'⟩ ∧ ∃ hello w' k',
    s'.out = hello ++ w' ∧ Spec.OnWire wholeConfig catState.rng catState.inp
      ([Spec.acceptReply, Spec.successReply] ++
        [Spec.confirm 0 demoOpen, Spec.success 5, Spec.dataMsg 5 (b! "ab"), Spec.dataMsg 5 (b! "c"),
          Spec.eofMsg 5, Spec.closeMsg 5, Spec.exitMsg 5 0].map Spec.encode)
      hello w' k' s'.rng := by
  obtain ⟨as, st, s', h1, -, ⟨hello, w', k', h2, h3, -⟩, ⟨ops, h5, h6⟩, h4⟩ := C108_server wholeConfig catState 1000
    entryLog flatKeys 5 _ [] (by decide) rfl (by decide +kernel) (entry_entered _) (p1 := demoP0) (p2 := demoP1)
    (o := demoOpen) (r := demoExec) (io := ⟨true, true, true⟩) (turns := catTurns) (status := 0)
    (conversation_stream [] (demoP0 :: demoP1 :: Spec.turnPackets catTurns) 5 (by decide +kernel))
    (legal_encode demoOpen_wf) (legal_encode demoExec_wf)
    rfl demoExec_asks rfl rfl rfl (by
      intro x hx
      simp only [catTurns, List.mem_cons, List.not_mem_nil, or_false] at hx
      rcases hx with rfl | rfl | rfl | rfl
      · exact ⟨legal_encode (by show Spec.Fits _; decide), rfl⟩
      · exact ⟨by decide, by decide, fun h => by cases h⟩
      · exact ⟨legal_encode (by show Spec.Fits _; decide), rfl⟩
      · exact ⟨by decide, by decide, fun h => by cases h⟩)
    (fun log d => ⟨d.length, rfl, Nat.le_refl _⟩) (by unfold Spec.Few; decide +kernel)
  exact ⟨ops, st, s', h4 ops 0 h5 h6, hello, w', k', h2, h3⟩

end Nora
