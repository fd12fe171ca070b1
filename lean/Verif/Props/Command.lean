import Verif.Props.ConnExact
import Verif.Props.EndToEnd
/-
C96: a client can run a command. The whole of it: the channel is opened, the command is started, all of
its output is sent, then the end of the output and the exit status.
-/
namespace Nora
open R

namespace Spec

/-- a piece of output of the process `n`, on standard error if `x.1`, and the message with it -/
def outBlock (n : Nat) (peer : UInt32) (x : Bool × Bytes) : List Event :=
  [.proc (if x.1 then .stderr n x.2 else .stdout n x.2), .sent (encode (dataMsg peer x.2))]

/-- A command from its start to its end: the packet `p1` with the CHANNEL_OPEN `o`, for which the channel `id`
is opened, the packet `p2` with the request `r`, for which the process `n` is started with the streams `io`,
its output in pieces `outs`, and its exit. -/
def commandLog (id : UInt32) (n : Nat) (p1 p2 : Bytes) (o : Chan.Open) (r : Chan.Request) (ty : SpawnType)
    (io : IoSet) (outs : List (Bool × Bytes)) (status : UInt32) : List Event :=
  [.received p1, .sent (encode (confirm id o))] ++
  (.received p2 :: .proc (.spawn ty n) :: .proc (.started n io.stdin io.stdout io.stderr) ::
    replyIf r.wantReply (success o.senderChannel)) ++
  outs.flatMap (outBlock n o.senderChannel) ++
  [.proc (.stdout n []), .sent (encode (eofMsg o.senderChannel)),
   .sent (encode (closeMsg o.senderChannel))] ++
  [.proc (.exited n status), .sent (encode (exitMsg o.senderChannel status))]

/-- what the client gets then -/
def commandReplies (id : UInt32) (o : Chan.Open) (r : Chan.Request) (outs : List (Bool × Bytes))
    (status : UInt32) : List Message :=
  [confirm id o] ++ (if r.wantReply then [success o.senderChannel] else []) ++
  outs.map (fun x => dataMsg o.senderChannel x.2) ++
  [eofMsg o.senderChannel, closeMsg o.senderChannel, exitMsg o.senderChannel status]

end Spec

section
variable {K : Crypto} {H : ConnHandlers} {user : Nat} {a : Authenticated} {sched : List Client.Step}
  {s s' : IoSt} {t : List Event} {ps : List Bytes} {rest : Bytes}

/-- the session can go on such that the events are `t` -/
def Reaches (K : Crypto) (H : ConnHandlers) (user : Nat) (a : Authenticated) (s : IoSt)
    (sched : List Client.Step) (t : List Event) : Prop :=
  ∃ more st s', Spec.Smooth (sched ++ more) ∧
    Client.steps K H user (Client.start a) (sched ++ more) s = (ok (.inl st), s') ∧ s'.log = s.log ++ t

/-- anything that the specification allows can happen next -/
theorem Reaches.block {b : List Event} (hw : s.wcap = none)
    (hs : Spec.Arrive K (Spec.keysOf a.receive) a.receive.counter.toNat ps s.inp rest)
    (h : Reaches K H user a s sched t) (hb : Spec.Block H user (fun _ => False) s.log t b)
    (hc : Spec.Fresh a (t ++ b)) (hp : Spec.payloads (t ++ b) <+: ps) :
    Reaches K H user a s sched (t ++ b) := by
  obtain ⟨more, st, s', h1, h2, h3⟩ := h
  rcases Block.quiet hb with ⟨q, u, rfl⟩ | hq
  · rcases Block.packet_inv hb with h | ⟨_, _, _, _, g, _⟩ | ⟨_, _, g, _⟩
    · obtain ⟨st2, s2, g1, g2⟩ := exec_reaction h2 h3 h1 hw hc.before hs (next_packet hp) h
      rw [List.append_assoc] at g1
      refine ⟨_, st2, s2, ?_, g1, g2⟩
      rw [← List.append_assoc]
      exact h1.snoc (by intro _ _ h; cases h)
    · exact g.elim
    · exact g.elim
  · obtain ⟨e, st2, s2, g1, g2⟩ := exec_output h2 h3 (fun n => h1.not_drops (by simp)) hw hc.before hb hq
    rw [List.append_assoc] at g1
    refine ⟨_, st2, s2, ?_, g1, g2⟩
    rw [← List.append_assoc]
    exact h1.snoc (fun _ _ h => by cases h; rfl)

theorem homes_next {v : Spec.View} {e : Event} (h : ∀ ty m, e ≠ .proc (.spawn ty m)) :
    (v.next e).homes = v.homes := by
  cases e with
  | received p =>
    simp only [Spec.View.next]
    cases Spec.msgOf p with
    | none => rfl
    | some m =>
      simp only [Option.elim]
      unfold Spec.View.receive
      split <;> rfl
  | sent p =>
    simp only [Spec.View.next]
    cases Spec.msgOf p with
    | none => rfl
    | some m =>
      simp only [Option.elim]
      unfold Spec.View.send
      split <;> rfl
  | auth => rfl
  | probe => rfl
  | proc e =>
    cases e with
    | spawn ty m => exact absurd rfl (h ty m)
    | started =>
      simp only [Spec.View.next]
      cases v.current <;> rfl
    | _ => rfl

theorem homes_append {u : List Event} (h : ∀ ty m, .proc (.spawn ty m) ∉ u) :
    (Spec.view (t ++ u)).homes = (Spec.view t).homes := by
  induction u generalizing t with
  | nil => rw [List.append_nil]
  | cons e u ih =>
    rw [show t ++ e :: u = (t ++ [e]) ++ u by simp,
      ih (fun ty m hm => h ty m (List.mem_cons_of_mem _ hm)), view_snoc]
    exact homes_next (fun ty m he => h ty m (by rw [he]; exact List.mem_cons_self))

theorem sent_outs (n : Nat) (peer : UInt32) (outs : List (Bool × Bytes)) :
    Spec.sentPayloads (outs.flatMap (Spec.outBlock n peer)) =
      (outs.map fun x => Spec.dataMsg peer x.2).map Spec.encode := by
  induction outs with
  | nil => rfl
  | cons x outs ih =>
    rw [List.flatMap_cons, sentPayloads_append, ih]
    rfl

theorem received_outs (n : Nat) (peer : UInt32) (outs : List (Bool × Bytes)) :
    Spec.payloads (outs.flatMap (Spec.outBlock n peer)) = [] := by
  induction outs with
  | nil => rfl
  | cons x outs ih =>
    rw [List.flatMap_cons, payloads_append, ih]
    rfl

/-- the messages to the client -/
theorem sent_command (id : UInt32) (n : Nat) (p1 p2 : Bytes) (o : Chan.Open) (r : Chan.Request)
    (ty : SpawnType) (io : IoSet) (outs : List (Bool × Bytes)) (status : UInt32) :
    Spec.sentPayloads (Spec.commandLog id n p1 p2 o r ty io outs status) =
      (Spec.commandReplies id o r outs status).map Spec.encode := by
  unfold Spec.commandLog Spec.commandReplies
  simp only [sentPayloads_append, sent_outs, List.map_append]
  cases r.wantReply <;> simp [Spec.sentPayloads, Spec.replyIf]

theorem received_command (id : UInt32) (n : Nat) (p1 p2 : Bytes) (o : Chan.Open) (r : Chan.Request)
    (ty : SpawnType) (io : IoSet) (outs : List (Bool × Bytes)) (status : UInt32) :
    Spec.payloads (Spec.commandLog id n p1 p2 o r ty io outs status) = [p1, p2] := by
  unfold Spec.commandLog
  simp only [payloads_append, received_outs]
  cases r.wantReply <;> rfl

/-- the output -/
theorem reaches_outs {n : Nat} {peer : UInt32} {outs : List (Bool × Bytes)} (hw : s.wcap = none)
    (hs : Spec.Arrive K (Spec.keysOf a.receive) a.receive.counter.toNat ps s.inp rest)
    (hr : Spec.Reading t n) (he : ∀ x ∈ outs, x.1 = true → Spec.ReadingErr t n)
    (hh : (Spec.view t).homes n = some peer) (ho : ∀ x ∈ outs, x.2 ≠ [] ∧ x.2.length ≤ 256)
    (h : Reaches K H user a s sched t) (hc : Spec.Fresh a (t ++ outs.flatMap (Spec.outBlock n peer)))
    (hp : Spec.payloads t <+: ps) :
    Reaches K H user a s sched (t ++ outs.flatMap (Spec.outBlock n peer)) := by
  induction outs generalizing t with
  | nil => rw [List.flatMap_nil, List.append_nil]; exact h
  | cons x outs ih =>
    obtain ⟨x1, x2⟩ := x
    have hx := ho _ List.mem_cons_self
    rw [List.flatMap_cons, ← List.append_assoc] at hc ⊢
    have hp' : Spec.payloads (t ++ Spec.outBlock n peer (x1, x2)) <+: ps := by
      rw [payloads_append, show Spec.payloads (Spec.outBlock n peer (x1, x2)) = [] from rfl,
        List.append_nil]
      exact hp
    have hb : Spec.Block H user (fun _ => False) s.log t (Spec.outBlock n peer (x1, x2)) := by
      cases x1 with
      | false => exact .stdout hr hh hx.1 hx.2
      | true => exact .stderr (he _ List.mem_cons_self rfl) hh hx.1 hx.2
    have hq : ∀ e ∈ Spec.outBlock n peer (x1, x2),
        e ≠ .proc (.stdout n []) ∧ e ≠ .proc (.stderr n []) ∧ ∀ ty m, e ≠ .proc (.spawn ty m) := by
      intro e hm
      have h2 : x2 ≠ [] := hx.1
      simp only [Spec.outBlock, List.mem_cons, List.not_mem_nil, or_false] at hm
      rcases hm with rfl | rfl
      · cases x1 <;> simp [h2]
      · simp
    refine ih ⟨?_, ?_⟩ ?_ ?_ (fun y hy => ho y (List.mem_cons_of_mem _ hy)) (h.block hw hs hb hc.before hp')
      hc hp'
    · obtain ⟨⟨i, e, hm⟩, _⟩ := hr
      exact ⟨i, e, List.mem_append_left _ hm⟩
    · intro hm
      rcases List.mem_append.mp hm with hm | hm
      · exact hr.2 hm
      · exact (hq _ hm).1 rfl
    · intro y hy hy1
      obtain ⟨⟨i, e, hm⟩, hne⟩ := he y (List.mem_cons_of_mem _ hy) hy1
      refine ⟨⟨i, e, List.mem_append_left _ hm⟩, ?_⟩
      intro hm
      rcases List.mem_append.mp hm with hm | hm
      · exact hne hm
      · exact (hq _ hm).2.1 rfl
    · rw [homes_append (fun ty m hm => (hq _ hm).2.2 ty m rfl)]
      exact hh

/-- C96: a command can be run. In any session that was never interrupted and on which writes succeed, if
the next two packets of the client are a CHANNEL_OPEN and a request to run something on the channel that is
opened for it (the least number not in use), and the handler `spawn` succeeds and gives a standard output,
then for any output in pieces of 1 to 256 bytes (on standard error if there is one) and for any exit status
the session can go on and do all of this; and then, whoever decrypts what was written gets exactly the
confirmation, the success (if it was wanted), the output in order, EOF, CLOSE and the exit status, after
the messages that were sent before. -/
theorem C96_command {st : Client.St}
    (hrun : Client.steps K H user (Client.start a) sched s = (ok (.inl st), s'))
    (hl : s'.log = s.log ++ t) (hsm : Spec.Smooth sched) (hw : s.wcap = none)
    (hs : Spec.Arrive K (Spec.keysOf a.receive) a.receive.counter.toNat ps s.inp rest)
    {p1 p2 : Bytes} {o : Chan.Open} {r : Chan.Request} {q : SessionRequest} {ty : SpawnType} {id : UInt32}
    {io : IoSet} {outs : List (Bool × Bytes)} {status : UInt32}
    (hps : Spec.payloads t ++ [p1, p2] <+: ps)
    (h1 : Spec.Legal (.channel (.open o)) p1) (h2 : Spec.Legal (.channel (.request r)) p2)
    (hid : Spec.LeastFree (Spec.view t) id) (hr : r.recipientChannel = id) (hq : Spec.Asks r q)
    (hty : Spec.runs q = some ty)
    (hspawn : H.spawn (s.log ++ (t ++ [.received p1, .sent (Spec.encode (Spec.confirm id o))]) ++
      [.received p2]) user ty = ok io)
    (hout : io.stdout = true) (herr : ∀ x ∈ outs, x.1 = true → io.stderr = true)
    (ho : ∀ x ∈ outs, x.2 ≠ [] ∧ x.2.length ≤ 256)
    (hc : Spec.Fresh a (t ++ Spec.commandLog id (Spec.view t).procs p1 p2 o r ty io outs status)) :
    ∃ more st2 s2, Spec.Smooth (sched ++ more) ∧
      Client.steps K H user (Client.start a) (sched ++ more) s = (ok (.inl st2), s2) ∧
      s2.log = s.log ++ (t ++ Spec.commandLog id (Spec.view t).procs p1 p2 o r ty io outs status) ∧
      ∃ w, s2.out = s.out ++ w ∧ Spec.Stream K (Spec.keysOf a.send) a.send.counter.toNat
        (Spec.sentPayloads t ++ (Spec.commandReplies id o r outs status).map Spec.encode) w [] := by
  obtain ⟨_, hg⟩ := good_of hrun hl
  have hbound := hg.agrees.bound
  rw [← hg.agrees.procs] at hbound
  generalize hn : (Spec.view t).procs = n at hbound hc ⊢
  have h0 : Reaches K H user a s sched t := ⟨[], st, s', by rwa [List.append_nil], by rwa [List.append_nil], hl⟩
  have hsplit : ∀ l1 l2 : List Event, Spec.payloads l2 = [] → (Spec.payloads (l1 ++ l2) <+: ps ↔
      Spec.payloads l1 <+: ps) := by
    intro l1 l2 h
    rw [payloads_append, h, List.append_nil]
  have hreply : Spec.payloads (Spec.replyIf r.wantReply (Spec.success o.senderChannel)) = [] := by
    cases r.wantReply <;> rfl
  have hrep : ∀ x, .proc x ∉ Spec.replyIf r.wantReply (Spec.success o.senderChannel) := by
    intro x
    cases r.wantReply <;> simp [Spec.replyIf]
  have fits : Spec.msgOf (Spec.encode (Spec.confirm id o)) = some (Spec.confirm id o) :=
    msgOf_encode rfl (wf_confirm _ _)
  -- the packets
  have hp2 : Spec.payloads (t ++ [.received p1, .sent (Spec.encode (Spec.confirm id o))] ++
      (.received p2 :: .proc (.spawn ty n) :: .proc (.started n io.stdin io.stdout io.stderr) ::
        Spec.replyIf r.wantReply (Spec.success o.senderChannel))) <+: ps := by
    have e : Spec.payloads (t ++ [.received p1, .sent (Spec.encode (Spec.confirm id o))] ++
      (.received p2 :: .proc (.spawn ty n) :: .proc (.started n io.stdin io.stdout io.stderr) ::
        Spec.replyIf r.wantReply (Spec.success o.senderChannel))) = Spec.payloads t ++ [p1, p2] := by
      rw [payloads_append, payloads_append, List.append_assoc]
      congr 1
      cases r.wantReply <;> rfl
    rw [e]
    exact hps
  have hp1 := payloads_left hp2
  -- the parts of the log
  generalize hL0 : t ++ [.received p1, .sent (Spec.encode (Spec.confirm id o))] = t1 at *
  have hv1 : Spec.view t1 = { Spec.view t with
      peers := Spec.set (Spec.view t).peers id (some o.senderChannel)
      stdins := Spec.set (Spec.view t).stdins id none } := by
    rw [← hL0, show t ++ [.received p1, .sent (Spec.encode (Spec.confirm id o))] =
      t ++ [.received p1] ++ [.sent (Spec.encode (Spec.confirm id o))] by simp, view_snoc, view_snoc]
    simp only [Spec.View.next, h1.msgOf rfl, Option.elim, Spec.View.receive, fits]
    rfl
  have hn1 : (Spec.view t1).procs = n := by rw [hv1]; exact hn
  have hpeer : (Spec.view t1).peers r.recipientChannel = some o.senderChannel := by
    rw [hv1, hr]; simp [Spec.set]
  have hstdin : (Spec.view t1).stdins r.recipientChannel = none := by
    rw [hv1, hr]; simp [Spec.set]
  have hb1 : ∀ e ∈ t1, ∀ m, marks e = some m → m < n := by
    intro e he m hm
    rw [← hL0] at he
    rcases List.mem_append.mp he with he | he
    · exact hbound e he m hm
    · simp at he
      rcases he with rfl | rfl <;> cases hm
  generalize hL1 : t1 ++ (.received p2 :: .proc (.spawn ty n) ::
    .proc (.started n io.stdin io.stdout io.stderr) ::
    Spec.replyIf r.wantReply (Spec.success o.senderChannel)) = t2 at *
  generalize hL2 : t2 ++ outs.flatMap (Spec.outBlock n o.senderChannel) = t3
  generalize hL3 : t3 ++ [.proc (.stdout n []), .sent (Spec.encode (Spec.eofMsg o.senderChannel)),
    .sent (Spec.encode (Spec.closeMsg o.senderChannel))] = t4
  have hL4 : t ++ Spec.commandLog id n p1 p2 o r ty io outs status = t4 ++
      [.proc (.exited n status), .sent (Spec.encode (Spec.exitMsg o.senderChannel status))] := by
    rw [← hL3, ← hL2, ← hL1, ← hL0]
    simp only [Spec.commandLog, List.append_assoc]
  rw [hL4] at hc
  have hc4 : Spec.Fresh a t4 := hc.before
  have hc3 : Spec.Fresh a t3 := by rw [← hL3] at hc4; exact hc4.before
  have hc2 : Spec.Fresh a t2 := by rw [← hL2] at hc3; exact hc3.before
  have hc1 : Spec.Fresh a t1 := by rw [← hL1] at hc2; exact hc2.before
  -- what is known of the process
  have hst2 : .proc (.started n io.stdin io.stdout io.stderr) ∈ t2 := by rw [← hL1]; simp
  have hmk : ∀ e ∈ t2, marks e = some n → e = .proc (.started n io.stdin io.stdout io.stderr) := by
    intro e he hm
    rw [← hL1] at he
    rcases List.mem_append.mp he with he | he
    · exact absurd (hb1 e he n hm) (Nat.lt_irrefl n)
    · simp only [List.mem_cons] at he
      rcases he with rfl | rfl | rfl | he
      · cases hm
      · cases hm
      · rfl
      · cases e with
        | proc x => exact absurd he (hrep x)
        | _ => cases hm
  have hread : Spec.Reading t2 n := by
    refine ⟨⟨io.stdin, io.stderr, by rw [← hout]; exact hst2⟩, fun h => ?_⟩
    have := hmk _ h rfl
    cases this
  have hreadErr : io.stderr = true → Spec.ReadingErr t2 n := by
    intro hx
    refine ⟨⟨io.stdin, io.stdout, by rw [hx] at hst2; exact hst2⟩, fun h => ?_⟩
    have := hmk _ h rfl
    cases this
  have hhome : (Spec.view t2).homes n = some o.senderChannel := by
    rw [← hL1, show t1 ++ (.received p2 :: .proc (.spawn ty n) ::
      .proc (.started n io.stdin io.stdout io.stderr) ::
      Spec.replyIf r.wantReply (Spec.success o.senderChannel)) =
      (t1 ++ [.received p2] ++ [.proc (.spawn ty n)]) ++
      (.proc (.started n io.stdin io.stdout io.stderr) ::
        Spec.replyIf r.wantReply (Spec.success o.senderChannel)) by simp,
      homes_append (by
        intro ty' m hm
        rcases List.mem_cons.mp hm with hm | hm
        · cases hm
        · exact hrep _ hm), view_snoc, view_snoc]
    simp only [Spec.View.next, h2.msgOf rfl, Option.elim, Spec.View.receive, Option.bind, hpeer, Spec.set,
      if_true]
  -- the session
  have g1 : Reaches K H user a s sched t1 := by
    have hc1' := hc1
    have hp1' := hp1
    rw [← hL0] at hc1' hp1' ⊢
    exact h0.block hw hs (.packet (.opened h1 hid)) hc1' hp1'
  have g2 : Reaches K H user a s sched t2 := by
    have hc2' := hc2
    have hp2' := hp2
    rw [← hL1] at hc2' hp2' ⊢
    refine g1.block hw hs (.packet ?_) hc2' hp2'
    have := Spec.Reaction.run h2 hpeer hq hty hspawn
    rw [hstdin, hn1] at this
    exact this
  have g3 : Reaches K H user a s sched t3 := by
    have hc3' := hc3
    rw [← hL2] at hc3' ⊢
    exact reaches_outs hw hs hread (fun x hx hx1 => hreadErr (herr x hx hx1)) hhome ho g2 hc3' hp2
  have hp3 : Spec.payloads t3 <+: ps := by
    rw [← hL2]
    exact (hsplit _ _ (received_outs _ _ _)).mpr hp2
  have hhome3 : (Spec.view t3).homes n = some o.senderChannel := by
    rw [← hL2, homes_append, hhome]
    intro ty' m hm
    obtain ⟨x, _, hm⟩ := List.mem_flatMap.mp hm
    simp only [Spec.outBlock, List.mem_cons, List.not_mem_nil, or_false] at hm
    rcases hm with hm | hm
    · split at hm <;> cases hm
    · cases hm
  have hmk3 : ∀ e ∈ t3, (e = .proc (.stdout n []) ∨ ∃ st, e = .proc (.exited n st)) → False := by
    intro e he hx
    rw [← hL2] at he
    rcases List.mem_append.mp he with he | he
    · rcases hx with rfl | ⟨st, rfl⟩
      · have := hmk _ he rfl; cases this
      · have := hmk _ he rfl; cases this
    · obtain ⟨x, hxo, hm⟩ := List.mem_flatMap.mp he
      have hne := (ho x hxo).1
      simp only [Spec.outBlock, List.mem_cons, List.not_mem_nil, or_false] at hm
      rcases hm with rfl | rfl
      · rcases hx with hx | ⟨st, hx⟩
        · split at hx
          · cases hx
          · injection hx with hx
            injection hx with _ hx
            exact hne hx
        · split at hx <;> cases hx
      · rcases hx with hx | ⟨st, hx⟩ <;> cases hx
  have hst3 : .proc (.started n io.stdin io.stdout io.stderr) ∈ t3 := by
    rw [← hL2]; exact List.mem_append_left _ hst2
  have hp4 : Spec.payloads t4 <+: ps := by
    rw [← hL3]
    exact (hsplit _ _ rfl).mpr hp3
  have g4 : Reaches K H user a s sched t4 := by
    have hc4' := hc4
    have hp4' := hp4
    rw [← hL3] at hc4' hp4' ⊢
    refine g3.block hw hs (.stdoutEnd ⟨⟨io.stdin, io.stderr, by rw [← hout]; exact hst3⟩, ?_⟩ hhome3) hc4' hp4'
    exact fun h => hmk3 _ h (.inl rfl)
  have g5 : Reaches K H user a s sched (t4 ++
      [.proc (.exited n status), .sent (Spec.encode (Spec.exitMsg o.senderChannel status))]) := by
    refine g4.block hw hs (.exit ⟨⟨io.stdin, io.stdout, io.stderr, ?_, by rw [hout]; rfl⟩, ?_⟩ ?_) hc
      ((hsplit _ _ rfl).mpr hp4)
    · rw [← hL3]; exact List.mem_append_left _ hst3
    · intro st hm
      rw [← hL3] at hm
      rcases List.mem_append.mp hm with hm | hm
      · exact hmk3 _ hm (.inr ⟨st, rfl⟩)
      · simp at hm
    · rw [← hL3, homes_append (by intro ty' m hm; simp at hm)]
      exact hhome3
  obtain ⟨more, st2, s2, k1, k2, k3⟩ := g5
  refine ⟨more, st2, s2, k1, k2, by rw [k3, hL4], ?_⟩
  obtain ⟨w, k4, k5, -⟩ := C60_written k2 (fun n => k1.not_drops (by simp)) k3
  refine ⟨w, k4, ?_⟩
  rw [← hL4, sentPayloads_append, sent_command] at k5
  exact k5

/-- C96: and a client with the keys and a buffer of 35000 bytes gets just these messages. -/
theorem C96_client {st : Client.St}
    (hrun : Client.steps K H user (Client.start a) sched s = (ok (.inl st), s'))
    (hl : s'.log = s.log ++ t) (hsm : Spec.Smooth sched) (hw : s.wcap = none)
    (hs : Spec.Arrive K (Spec.keysOf a.receive) a.receive.counter.toNat ps s.inp rest)
    {p1 p2 : Bytes} {o : Chan.Open} {r : Chan.Request} {q : SessionRequest} {ty : SpawnType} {id : UInt32}
    {io : IoSet} {outs : List (Bool × Bytes)} {status : UInt32}
    (hps : Spec.payloads t ++ [p1, p2] <+: ps)
    (h1 : Spec.Legal (.channel (.open o)) p1) (h2 : Spec.Legal (.channel (.request r)) p2)
    (hid : Spec.LeastFree (Spec.view t) id) (hr : r.recipientChannel = id) (hq : Spec.Asks r q)
    (hty : Spec.runs q = some ty)
    (hspawn : H.spawn (s.log ++ (t ++ [.received p1, .sent (Spec.encode (Spec.confirm id o))]) ++
      [.received p2]) user ty = ok io)
    (hout : io.stdout = true) (herr : ∀ x ∈ outs, x.1 = true → io.stderr = true)
    (ho : ∀ x ∈ outs, x.2 ≠ [] ∧ x.2.length ≤ 256)
    (hc : Spec.Fresh a (t ++ Spec.commandLog id (Spec.view t).procs p1 p2 o r ty io outs status)) :
    ∃ more st2 s2 w, Spec.Smooth (sched ++ more) ∧
      Client.steps K H user (Client.start a) (sched ++ more) s = (ok (.inl st2), s2) ∧
      s2.out = s.out ++ w ∧ ∀ (peer : ChaCha) (buf : Bytes) (sp : IoSt),
      Spec.keysOf peer = Spec.keysOf a.send → peer.counter = a.send.counter → 35000 ≤ buf.length →
      sp.inp = w →
      delivered K ((Spec.sentPayloads t).length + (Spec.commandReplies id o r outs status).length) peer buf sp =
        Spec.sentPayloads t ++ (Spec.commandReplies id o r outs status).map Spec.encode := by
  obtain ⟨more, st2, s2, g1, g2, -, w, g4, g5⟩ :=
    C96_command hrun hl hsm hw hs hps h1 h2 hid hr hq hty hspawn hout herr ho hc
  refine ⟨more, st2, s2, w, g1, g2, g4, ?_⟩
  intro peer buf sp hk hcnt hb hi
  have hlen : (Spec.sentPayloads (t ++ Spec.commandLog id (Spec.view t).procs p1 p2 o r ty io outs status)).length
      = (Spec.sentPayloads t).length + (Spec.commandReplies id o r outs status).length := by
    rw [sentPayloads_append, List.length_append, sent_command, List.length_map]
  have := stream_delivered (c := peer) (buf := buf) (s := sp) (rest := [])
    (by rw [hk, hcnt, hi]; exact g5) hb (by
      rw [hcnt, List.length_append, List.length_map, ← hlen]
      have := hc.1
      omega)
  rw [List.length_append, List.length_map] at this
  exact this

end

/-! ### the command "ls" -/

/-- it writes "x", "?" on standard error and "y", and its exit status is 2 -/
private def lsOuts : List (Bool × Bytes) := [(false, b! "x"), (true, b! "?"), (false, b! "y")]
private def lsIo : IoSet := ⟨true, true, true⟩
private def lsLog : List Event :=
  Spec.commandLog 0 0 demoP0 demoP1 demoOpen demoExec (.exec (b! "ls")) lsIo lsOuts 2

private theorem ls_ps : ∀ p ∈ ([] : List Bytes), p.length ≤ 30000 := fun _ h => by cases h

private theorem ls_fresh : Spec.Fresh demoAuth lsLog := by
  have h1 : (Spec.sentPayloads lsLog).length = 8 := by decide +kernel
  have h2 : (Spec.payloads lsLog).length = 2 := by decide +kernel
  unfold Spec.Fresh
  rw [h1, h2]
  decide

/-- the premises of C96 can be met -/
private theorem ls_session : ∃ more st2 s2, Spec.Smooth more ∧
    Client.steps .flat (demoHandlers lsIo List.length) 1000 (Client.start demoAuth) more (demoState []) =
      (ok (.inl st2), s2) ∧ s2.log = lsLog ∧
    ∃ w, s2.out = w ∧ Spec.Stream .flat (Spec.keysOf demoAuth.send) 4
      ([Spec.confirm 0 demoOpen, Spec.success 5, Spec.dataMsg 5 (b! "x"), Spec.dataMsg 5 (b! "?"),
        Spec.dataMsg 5 (b! "y"), Spec.eofMsg 5, Spec.closeMsg 5, Spec.exitMsg 5 2].map Spec.encode) w [] :=
  C96_command (K := .flat) (H := demoHandlers lsIo List.length) (user := 1000) (a := demoAuth) (sched := [])
    (s := demoState []) (t := []) (ps := [demoP0, demoP1]) (rest := []) (o := demoOpen) (r := demoExec)
    (id := 0) (io := lsIo) (outs := lsOuts) (status := 2) rfl rfl (fun _ _ h => by cases h) rfl
    (demo_stream ls_ps) (List.prefix_refl _) (legal_encode demoOpen_wf) (legal_encode demoExec_wf)
    ⟨rfl, fun j hj => absurd hj (Nat.not_lt_zero _)⟩ rfl demoExec_asks rfl rfl rfl (fun _ _ _ => rfl)
    (by decide) ls_fresh

/-- and these events are a trace of the specification, by C95 -/
example : Spec.Trace (demoHandlers lsIo List.length) 1000 (fun _ => False) [] lsLog ∧
    Spec.payloads lsLog <+: [demoP0, demoP1] := by
  obtain ⟨more, st2, s2, h1, h2, h3, -⟩ := ls_session
  exact (C95_sessions (K := .flat) (a := demoAuth) (s := demoState []) (rest := []) rfl (demo_stream ls_ps)
    ls_fresh (by decide +kernel)).mp ⟨more, st2, s2, h1, h2, h3⟩

/-- after it the session may end because there are no more packets, by C95 -/
example : ∃ sched s', Spec.Smooth sched ∧
    Client.steps .flat (demoHandlers lsIo List.length) 1000 (Client.start demoAuth) sched (demoState []) =
      (err (.recv .read), s') ∧ s'.log = lsLog := by
  obtain ⟨more, st2, s2, h1, h2, h3, -⟩ := ls_session
  have ht := (C95_sessions (K := .flat) (a := demoAuth) (s := demoState []) (rest := []) rfl
    (demo_stream ls_ps) ls_fresh (by decide +kernel)).mp ⟨more, st2, s2, h1, h2, h3⟩
  exact (C95_endings (K := .flat) (a := demoAuth) (s := demoState []) rfl (demo_stream ls_ps)
    (.short (by decide)) ls_fresh (by simp)).mpr ⟨lsLog, [], (List.append_nil _).symm, ht.1, ht.2,
      .lost ⟨by decide +kernel, rfl⟩⟩

/-- but not without having received the second packet, -/
example : ¬ ∃ sched s', Spec.Smooth sched ∧
    Client.steps .flat (demoHandlers lsIo List.length) 1000 (Client.start demoAuth) sched (demoState []) =
      (err (.recv .read), s') ∧ s'.log = demoLog0 := by
  intro h
  obtain ⟨t0, b, e, -, -, he⟩ := (C95_endings (K := .flat) (a := demoAuth) (s := demoState []) rfl
    (demo_stream ls_ps) (.short (by decide)) (t := demoLog0) ⟨by decide +kernel, by decide +kernel⟩ (by simp)).mp h
  cases he with
  | lost h =>
    rw [List.append_nil] at e
    rw [← e] at h
    exact absurd h.1 (by decide +kernel)

/-- and the channel cannot be confirmed with another number. -/
example : ¬ ∃ sched st s', Spec.Smooth sched ∧
    Client.steps .flat (demoHandlers lsIo List.length) 1000 (Client.start demoAuth) sched (demoState []) =
      (ok (.inl st), s') ∧ s'.log = [.received demoP0, .sent (Spec.encode (Spec.confirm 1 demoOpen))] := by
  rintro ⟨sched, st, s', h1, h2, h3⟩
  obtain ⟨t0, q, o, e, -, -, -, -, -, h⟩ := C40_confirmation (s := demoState []) h2
    (t1 := [.received demoP0]) (t2 := []) h3 (legal_encode (wf_confirm 1 demoOpen))
  obtain ⟨rfl, -⟩ := List.append_inj' (s₁ := []) e rfl
  exact h.2 0 (by decide) rfl

end Nora
