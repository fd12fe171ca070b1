import Verif.Props.ConnWitness
import Verif.Props.Sshd
/-
Rules of RFC 4252 and RFC 4254 that the server does not follow, and what it does instead: C74-C79.
-/
namespace Nora
open R

section
variable {K : Crypto} {H : ConnHandlers} {user : Nat} {a : Authenticated} {sched : List Client.Step}
  {s s' : IoSt} {r : R Client.Stop (Client.St ⊕ Unit)}

/-! ### C74 channel types -/

/-- C74 in full: only channels of the type `session` are confirmed (RFC 4254, 5.1: the server decides whether
it can open the channel, and there are no other types it supports). -/
def C74_statement : Prop :=
  ∀ (K : Crypto) (H : ConnHandlers) (user : Nat) (a : Authenticated) (sched : List Client.Step)
    (s s' : IoSt) (r : R Client.Stop (Client.St ⊕ Unit)) (t1 t2 : List Event) (q p : Bytes) (o : Chan.Open)
    (c : Chan.OpenConfirmation),
    Client.steps K H user (Client.start a) sched s = (r, s') →
    s'.log = s.log ++ (t1 ++ .received q :: .sent p :: t2) → Spec.Legal (.channel (.open o)) q →
    Spec.Legal (.channel (.openConfirmation c)) p → o.ty = b! "session"

/-- C74, part: a channel of the type `session` is confirmed at once, unless all numbers are in use or a
packet counter is exhausted. -/
theorem C74_session_partial (hrun : Client.steps K H user (Client.start a) sched s = (r, s'))
    {t1 t2 : List Event} {q : Bytes} {o : Chan.Open} (hl : s'.log = s.log ++ (t1 ++ .received q :: t2))
    (hq : Spec.Legal (.channel (.open o)) q) (_ : o.ty = b! "session") :
    (∃ id t3, t2 = .sent (Spec.encode (Spec.confirm id o)) :: t3 ∧ Spec.LeastFree (Spec.view t1) id) ∨
    (t2 = [] ∧ r = R.panic ∧ ((∀ id, (Spec.view t1).peers id ≠ none) ∨ Spec.Exhausted a t1)) :=
  C40_open hrun hl hq

/-- C74: and no channel is ever declined, whatever its type. -/
theorem C74_never_declined (hrun : Client.steps K H user (Client.start a) sched s = (r, s'))
    {t1 t2 : List Event} {p : Bytes} (hl : s'.log = s.log ++ (t1 ++ .sent p :: t2))
    (c : Chan.OpenFailure) : ¬ Spec.Legal (.channel (.openFailure c)) p := by
  intro hp
  have h := cause_of hrun rfl hl hp
  generalize hm : Message.channel (.openFailure c) = m at h
  cases h <;> cases hm

/-- a channel for a connection to the X server of the other side -/
def x11Open : Chan.Open := { demoOpen with ty := b! "x11" }

theorem x11Open_wf : Spec.WF (.channel (.open x11Open)) := show Spec.Fits _ by decide

/-- A channel of the type `x11` is confirmed. -/
theorem C74_refuted : ¬ C74_statement := by
  intro hall
  have hps : ∀ p ∈ [Spec.encode (.channel (.open x11Open))], p.length ≤ 30000 := by decide
  obtain ⟨st, s1, h1, l1⟩ := demo_base demoIo List.length hps
  obtain ⟨m2, st2, s2, b2, h2, l2, r2⟩ := demo_next hps h1 l1 smooth_start ⟨by decide, by decide⟩
    (m := .channel (.open x11Open)) rfl rfl x11Open_wf (by simp) (by
      rw [demo_view]
      intro h
      cases h with
      | unsupported h => cases h
      | full h => exact h 1 rfl)
  cases r2 with
  | opened g =>
    have := hall _ _ _ _ _ _ _ _ (demoLog demoIo) [] _ _ x11Open _ h2 l2 (legal_encode x11Open_wf)
      (legal_encode (m := Spec.confirm _ x11Open) trivial)
    revert this
    decide

-- a session channel is confirmed, which meets the premises of C74_session_partial and C74_never_declined
example : ∃ st s', Client.steps .flat (demoHandlers demoIo List.length) 1000 (Client.start demoAuth)
      [.message, .message] (demoState []) = (ok (.inl st), s') ∧
    ∃ id t3, s'.log = .received demoP0 :: .sent (Spec.encode (Spec.confirm id demoOpen)) :: t3 := by
  obtain ⟨st, s1, h1, l1⟩ := demo_base demoIo List.length (ps := []) (by simp)
  refine ⟨st, s1, h1, ?_⟩
  obtain ⟨id, t3, h, -⟩ | ⟨h, -⟩ := C74_session_partial h1 (t1 := []) (q := demoP0) (o := demoOpen)
    (t2 := (demoLog demoIo).drop 1) l1 (legal_encode demoOpen_wf) rfl
  · exact ⟨id, t3, by rw [l1, ← h]; rfl⟩
  · cases h

/-! ### C75 CLOSE -/

/-- C75 in full: CLOSE for an open channel is answered with CLOSE, if the server has not sent it already
(RFC 4254, 5.3): it has been sent, or will be sent in some continuation of the session. -/
def C75_statement : Prop :=
  ∀ (K : Crypto) (H : ConnHandlers) (user : Nat) (a : Authenticated) (sched : List Client.Step)
    (s s' : IoSt) (st : Client.St) (t1 t2 : List Event) (q : Bytes) (c : Chan.ChanOnly) (peer : UInt32),
    Client.steps K H user (Client.start a) sched s = (ok (.inl st), s') →
    s'.log = s.log ++ (t1 ++ .received q :: t2) → Spec.Legal (.channel (.close c)) q →
    (Spec.view t1).peers c.recipientChannel = some peer →
    ∃ more r2 s2 t, Client.steps K H user (Client.start a) (sched ++ more) s = (r2, s2) ∧
      s2.log = s.log ++ t ∧ .sent (Spec.encode (Spec.closeMsg peer)) ∈ t

/-- C75, part: CLOSE is sent only when the standard output of a process has ended, to the channel on which
that process was asked for; then it is sent at once (C44_ended). -/
theorem C75_ended_partial (hrun : Client.steps K H user (Client.start a) sched s = (r, s'))
    {t1 t2 : List Event} {p : Bytes} {c : Chan.ChanOnly}
    (hl : s'.log = s.log ++ (t1 ++ .sent p :: t2)) (hp : Spec.Legal (.channel (.close c)) p) :
    ∃ t0 q req ty n t2 i e, t1 = t0 ++ .received q :: .proc (.spawn ty n) :: t2 ∧
      Spec.Legal (.channel (.request req)) q ∧
      (Spec.view t0).peers req.recipientChannel = some c.recipientChannel ∧
      .proc (.started n i true e) ∈ t1 ∧ .proc (.stdout n []) ∈ t1 := by
  obtain ⟨t0, n, h1, h2⟩ := C44_close hrun hl hp
  obtain ⟨u, q, req, ty, t3, e1, e2, e3⟩ := C41_home hrun
    (t := t0) (t' := [.proc (.stdout n []), .sent (Spec.encode (Spec.eofMsg c.recipientChannel))] ++
      .sent p :: t2) (by rw [hl, h1]; simp) h2
  obtain ⟨t0', b, g1, _, g2⟩ := (session_whole hrun (t := t0 ++ .proc (.stdout n []) ::
    .sent (Spec.encode (Spec.eofMsg c.recipientChannel)) :: .sent p :: t2) (by rw [hl, h1]; simp)).local
  cases g2 with
  | stdout k1 k2 k3 =>
    rw [List.append_nil] at g1
    subst g1
    obtain ⟨⟨i, e, k1⟩, _⟩ := k1
    refine ⟨u, q, req, ty, n, t3 ++ [.proc (.stdout n []),
      .sent (Spec.encode (Spec.eofMsg c.recipientChannel))], i, e, ?_, e2, e3, ?_, ?_⟩
    · rw [h1, e1]; simp
    · rw [h1]; exact List.mem_append_left _ k1
    · rw [h1]; simp

/-- C75: in particular, a CLOSE for a channel on which no process was ever asked for is never answered: no
CLOSE is sent to a number for which there was no request to start a process. -/
theorem C75_unanswered (hrun : Client.steps K H user (Client.start a) sched s = (r, s')) {t : List Event}
    (hl : s'.log = s.log ++ t) {peer : UInt32}
    (hno : ∀ t0 q req t2, t = t0 ++ .received q :: t2 → Spec.Legal (.channel (.request req)) q →
      (Spec.view t0).peers req.recipientChannel ≠ some peer) :
    .sent (Spec.encode (Spec.closeMsg peer)) ∉ t := by
  intro hm
  obtain ⟨x, y, rfl⟩ := List.append_of_mem hm
  obtain ⟨t0, q, req, ty, n, t2, i, e, h1, h2, h3, -⟩ := C75_ended_partial (c := ⟨peer⟩) hrun hl
    (legal_encode (m := Spec.closeMsg peer) trivial)
  exact hno t0 q req (.proc (.spawn ty n) :: t2 ++ .sent (Spec.encode (Spec.closeMsg peer)) :: y)
    (by rw [h1]; simp) h2 h3

/-- CLOSE -/
def demoClose : Message := .channel (.close ⟨0⟩)

/-- The channel of a process without standard output is closed by the client, and never by the server. -/
theorem C75_refuted : ¬ C75_statement := by
  intro hall
  have hps : ∀ p ∈ [Spec.encode demoClose], p.length ≤ 30000 := by decide
  obtain ⟨st, s1, h1, l1⟩ := demo_base ⟨true, false, true⟩ List.length hps
  obtain ⟨m2, st2, s2, b2, h2, l2, r2⟩ := demo_next hps h1 l1 smooth_start ⟨by decide, by decide⟩
    (m := demoClose) rfl rfl trivial (by simp [demoClose]) (by
      intro h
      have h : FatalMsg _ (.channel (.close ⟨0⟩)) := h
      cases h with
      | unsupported h => cases h)
  obtain ⟨more, r3, s3, t, h3, l3, hm⟩ := hall _ _ _ _ _ _ _ _ _ _ _ ⟨0⟩ 5 h2 l2
    (legal_encode (m := demoClose) trivial) (by rw [demo_view ⟨true, false, true⟩]; rfl)
  obtain ⟨x, y, rfl⟩ := List.append_of_mem hm
  obtain ⟨_, _, _, _, n, _, i, e, -, -, -, g, -⟩ := C75_ended_partial (c := ⟨5⟩) h3 l3
    (legal_encode (m := Spec.closeMsg 5) trivial)
  obtain ⟨u, v, rfl⟩ := List.append_of_mem g
  obtain ⟨_, _, _, _, _, _, _, _, _, k⟩ := C43_started h3 (t1 := u) (n := n) (i := i)
    (o := true) (e := e) (t2 := v ++ .sent (Spec.encode (Spec.closeMsg 5)) :: y) (by rw [l3]; simp)
  cases k

-- CLOSE after the end of the output, which meets the premises of C75_ended_partial
example : ∃ (sched : List Client.Step) (st : Client.St) (s' : IoSt) (t1 t2 : List Event), Client.steps .flat
      (demoHandlers demoIo List.length) 1000 (Client.start demoAuth) sched (demoState []) =
        (ok (.inl st), s') ∧
    s'.log = (demoState []).log ++ (t1 ++ .sent (Spec.encode (Spec.closeMsg 5)) :: t2) ∧
    .proc (.stdout 0 []) ∈ t1 := by
  obtain ⟨sched, st, s', h, l⟩ := demo_end [] (by simp)
  exact ⟨sched, st, s', demoLog demoIo ++ [.proc (.stdout 0 []), .sent (Spec.encode (Spec.eofMsg 5))], _,
    h, by rw [l]; simp [demoState]; rfl, by simp⟩

/-! ### C76 one process for a channel -/

/-- C76 in full: only one request for a shell or a command can succeed for a channel (RFC 4254, 6.5). -/
def C76_statement : Prop :=
  ∀ (K : Crypto) (H : ConnHandlers) (user : Nat) (a : Authenticated) (sched : List Client.Step)
    (s s' : IoSt) (r : R Client.Stop (Client.St ⊕ Unit)) (t1 t2 t3 : List Event) (q q' : Bytes)
    (req req' : Chan.Request) (n n' : Nat) (ty ty' : SpawnType) (i i' o o' e e' : Bool),
    Client.steps K H user (Client.start a) sched s = (r, s') →
    s'.log = s.log ++ (t1 ++ [.received q, .proc (.spawn ty n), .proc (.started n i o e)] ++ t2 ++
      [.received q', .proc (.spawn ty' n'), .proc (.started n' i' o' e')] ++ t3) →
    Spec.Legal (.channel (.request req)) q → Spec.Legal (.channel (.request req')) q' →
    req.recipientChannel = req'.recipientChannel →
    ∃ x c, .received x ∈ t2 ∧ Spec.Legal (.channel (.close c)) x ∧
      c.recipientChannel = req.recipientChannel

/-- the block of a request that starts a process for a channel whose data already goes to one -/
theorem Block.replaces {A : Client.Cut → Prop} {l0 t b : List Event} {q : Bytes} {req : Chan.Request}
    {ty : SpawnType} {n m : Nat} {i o e : Bool}
    (h : Spec.Block H user A l0 t (.received q :: .proc (.spawn ty m) :: .proc (.started m i o e) :: b))
    (hq : Spec.Legal (.channel (.request req)) q)
    (hn : (Spec.view t).stdins req.recipientChannel = some n) :
    ∃ b', b = .proc (.stdinClosed n) :: b' := by
  rcases Block.packet_inv h with h | ⟨_, _, _, _, _, _, _, _, _, h⟩ | ⟨_, _, _, _, _, _, h⟩
  · have h := Reaction.to h rfl hq
    generalize hb : Event.proc (.spawn ty m) :: .proc (.started m i o e) :: b = b0 at h
    cases h with
    | run g1 g2 g3 g4 =>
      rw [hn] at hb
      simp only [Spec.closing, List.cons_append, List.nil_append, List.cons.injEq] at hb
      exact ⟨_, hb.2.2⟩
    | decline =>
      unfold Spec.replyIf at hb
      split at hb <;> cases hb
  · cases h
  · cases h

/-- C76, part: when a second process is started for a channel, the standard input of the first one is closed
at once, and it never gets data again: what the client sends goes to the second one. -/
theorem C76_input_partial (hrun : Client.steps K H user (Client.start a) sched s = (r, s'))
    {t1 t2 : List Event} {q : Bytes} {req : Chan.Request} {ty : SpawnType} {n m : Nat} {i o e : Bool}
    (hl : s'.log = s.log ++ (t1 ++ [.received q, .proc (.spawn ty m), .proc (.started m i o e)] ++ t2))
    (hq : Spec.Legal (.channel (.request req)) q)
    (hn : (Spec.view t1).stdins req.recipientChannel = some n) :
    n ≠ m ∧ (∃ t3, t2 = .proc (.stdinClosed n) :: t3) ∧ (∀ d, .proc (.stdin n d) ∉ t2) ∧
      (Spec.view (t1 ++ [.received q, .proc (.spawn ty m), .proc (.started m i o e)])).stdins
        req.recipientChannel = if i then some m else none := by
  obtain ⟨t0, b1, h1, h2, h3⟩ := (session_whole hrun (t := t1 ++ [.received q, .proc (.spawn ty m)] ++
    .proc (.started m i o e) :: t2) (by rw [hl]; simp)).split
  have hloc : Local H user (Spec.Drops sched) s.log t0 b1 (.proc (.started m i o e)) := by
    rcases h3 with ⟨_, _, _, h3, _⟩ | h3
    · exact Block.local h3
    · exact Ending.local h3
  generalize he : Event.proc (.started m i o e) = ev at hloc
  cases hloc <;> cases he
  rename_i p req' x peer io k1 k2 k3 k4 k5
  obtain ⟨rfl, h1⟩ := List.append_inj' h1 rfl
  cases h1
  have hlt := (inputs_all hrun (t := t1) (t' := .received q :: .proc (.spawn ty (Spec.view t1).procs) ::
    .proc (.started (Spec.view t1).procs io.stdin io.stdout io.stderr) :: t2) (by rw [hl]; simp)
    t1 [] (by simp)).bound hn
  have hclosed : ∃ t3, t2 = .proc (.stdinClosed n) :: t3 := by
    rcases h3 with ⟨b2, t3, rfl, h3, _⟩ | h3
    · obtain ⟨b', rfl⟩ := Block.replaces h3 hq hn
      exact ⟨_, rfl⟩
    · generalize hb : [Event.received q, .proc (.spawn ty (Spec.view t1).procs)] ++
        .proc (.started (Spec.view t1).procs io.stdin io.stdout io.stderr) :: t2 = b at h3
      cases h3 with
      | disconnect => cases hb
      | lost => cases hb
      | write gw g =>
        rename_i b q' b'
        have hb' : b ++ .sent q' :: b' = .received q :: .proc (.spawn ty (Spec.view t1).procs) ::
            .proc (.started (Spec.view t1).procs io.stdin io.stdout io.stderr) :: (t2 ++ b') := by
          rw [show b ++ .sent q' :: b' = (b ++ [.sent q']) ++ b' by simp, ← hb]
          simp
        rw [hb'] at g
        obtain ⟨b'', g⟩ := Block.replaces g hq hn
        cases t2 with
        | nil =>
          have := congrArg List.getLast? hb
          simp at this
        | cons ev t2 => cases g; exact ⟨_, rfl⟩
      | fatal => cases hb
      | spawnFails => cases hb
      | writeFails => cases hb
      | readFails => cases hb
      | overflow => cases hb
      | sendOverflow gw g =>
        rename_i q' b'
        obtain ⟨b'', g⟩ := Block.replaces (b := t2 ++ .sent q' :: b') (by
          rw [← hb] at g; simpa using g) hq hn
        cases t2 with
        | nil => cases g
        | cons ev t2 => cases g; exact ⟨_, rfl⟩
  refine ⟨by omega, hclosed, ?_, ?_⟩
  · obtain ⟨t3, rfl⟩ := hclosed
    intro d hm
    rcases List.mem_cons.mp hm with hm | hm
    · cases hm
    · exact (C61_closed hrun (n := n) (t1 := t1 ++ [.received q, .proc (.spawn ty (Spec.view t1).procs),
        .proc (.started (Spec.view t1).procs io.stdin io.stdout io.stderr)]) (t2 := t3) hl).2.2 d hm
  · rw [view_append]
    simp only [List.foldl_cons, List.foldl_nil, Spec.View.next, hq.msgOf rfl, Option.elim,
      Spec.View.receive, set_same]


/-- Two processes are started for one channel. -/
theorem C76_refuted : ¬ C76_statement := by
  intro hall
  have hps : ∀ p ∈ [demoP1], p.length ≤ 30000 := by decide
  obtain ⟨st, s1, h1, l1⟩ := demo_base demoIo List.length hps
  obtain ⟨m2, st2, s2, b2, h2, l2, r2⟩ := demo_next hps h1 l1 smooth_start ⟨by decide, by decide⟩
    (m := .channel (.request demoExec)) rfl rfl demoExec_wf (by simp) (by
      rw [demo_view]
      intro h
      cases h with
      | unsupported h => cases h
      | request h => cases h
      | badRequest h => exact h _ demoExec_asks
      | otherRequest h h' _ => rw [Asks.unique h demoExec_asks] at h'; cases h')
  cases r2 with
  | run g1 g2 g3 g4 =>
    obtain ⟨x, c, hx, -⟩ := hall _ _ _ _ _ _ _ _ demoLog0 [.sent (Spec.encode (Spec.success 5))] _
      demoP1 (Spec.encode (.channel (.request demoExec))) demoExec demoExec _ _ _ _ _ _ _ _ _ _ h2
      (by rw [l2, demoLog]; simp only [List.append_assoc, List.cons_append, List.nil_append]; rfl)
      (legal_encode demoExec_wf) (legal_encode demoExec_wf) rfl
    simp at hx
  | decline g1 g2 g3 => rw [Asks.unique g2 demoExec_asks] at g3; cases g3

-- the second process of C76_refuted replaces the first one, which meets the premises of C76_input_partial
example : ∃ (sched : List Client.Step) (st : Client.St) (s' : IoSt) (t3 : List Event), Client.steps .flat
      (demoHandlers demoIo List.length) 1000 (Client.start demoAuth) sched (demoState [demoP1]) =
        (ok (.inl st), s') ∧
    s'.log = demoLog demoIo ++ [.received demoP1, .proc (.spawn (.exec (b! "ls")) 1),
      .proc (.started 1 true true false)] ++ .proc (.stdinClosed 0) :: t3 := by
  have hps : ∀ p ∈ [demoP1], p.length ≤ 30000 := by decide
  obtain ⟨st, s1, h1, l1⟩ := demo_base demoIo List.length hps
  obtain ⟨m2, st2, s2, b2, h2, l2, r2⟩ := demo_next hps h1 l1 smooth_start ⟨by decide, by decide⟩
    (m := .channel (.request demoExec)) rfl rfl demoExec_wf (by simp) (by
      rw [demo_view]
      intro h
      cases h with
      | unsupported h => cases h
      | request h => cases h
      | badRequest h => exact h _ demoExec_asks
      | otherRequest h h' _ => rw [Asks.unique h demoExec_asks] at h'; cases h')
  cases r2 with
  | run g1 g2 g3 g4 =>
    rw [Asks.unique g2 demoExec_asks] at g3
    cases g3
    cases g4
    rw [demo_view] at l2
    obtain ⟨t2, l2⟩ : ∃ t2, s2.log = demoLog demoIo ++ [.received demoP1,
        .proc (.spawn (.exec (b! "ls")) 1), .proc (.started 1 true true false)] ++ t2 :=
      ⟨_, by rw [l2, List.append_assoc]; rfl⟩
    obtain ⟨-, ⟨t3, h⟩, -⟩ := C76_input_partial h2 (n := 0) l2 (legal_encode demoExec_wf)
      (by rw [demo_view demoIo]; rfl)
    exact ⟨_, st2, s2, t3, h2, by rw [l2, h]⟩
  | decline g1 g2 g3 => rw [Asks.unique g2 demoExec_asks] at g3; cases g3

/-! ### C77 exit status -/

/-- C77 in full: the exit of every process that runs can be reported, whatever its status, in a session
without interruptions. -/
def C77_statement : Prop :=
  ∀ (K : Crypto) (H : ConnHandlers) (user : Nat) (a : Authenticated) (sched : List Client.Step)
    (s s' : IoSt) (st : Client.St) (t : List Event) (n : Nat) (peer status : UInt32),
    Client.steps K H user (Client.start a) sched s = (ok (.inl st), s') →
    s'.log = s.log ++ t → Spec.Smooth sched → s.wcap = none → Spec.Fresh a t → Spec.Running t n →
    (Spec.view t).homes n = some peer →
    ∃ more r2 s2 t2, Client.steps K H user (Client.start a) (sched ++ more) s = (r2, s2) ∧
      s2.log = s.log ++ (t ++ t2) ∧ .proc (.exited n status) ∈ t2 ∧
      .sent (Spec.encode (Spec.exitMsg peer status)) ∈ t2

/-- C77, part: this holds for each process that was started with a standard output or error output. -/
theorem C77_watched_partial {st : Client.St} {t : List Event} {n : Nat} {peer status : UInt32}
    (hrun : Client.steps K H user (Client.start a) sched s = (ok (.inl st), s'))
    (hl : s'.log = s.log ++ t) (hsm : Spec.Smooth sched) (hw : s.wcap = none) (hc : Spec.Fresh a t)
    (hn : Spec.Watched t n) (hp : (Spec.view t).homes n = some peer) :
    ∃ e st2 s2, Client.steps K H user (Client.start a) (sched ++ [.event .none e]) s =
        (ok (.inl st2), s2) ∧
      s2.log = s.log ++ (t ++ [.proc (.exited n status), .sent (Spec.encode (Spec.exitMsg peer status))]) :=
  C62_output hrun hl (fun n => hsm.not_drops (by simp)) hw hc (.exit hn hp) rfl

/-- C77: and for no other: the exit of a process is noticed only if it has an output. -/
theorem C77_unwatched (hrun : Client.steps K H user (Client.start a) sched s = (r, s'))
    {t1 t2 : List Event} {n : Nat} {status : UInt32}
    (hl : s'.log = s.log ++ (t1 ++ .proc (.exited n status) :: t2)) :
    ∃ i o e, .proc (.started n i o e) ∈ t1 ∧ (o || e) = true := by
  obtain ⟨t0, b, h1, _, h⟩ := (session_whole hrun hl).local
  cases h with
  | exited g1 g2 =>
    rw [List.append_nil] at h1
    subst h1
    exact g1.1

/-- The exit of a process that has only an input is never reported. -/
theorem C77_refuted : ¬ C77_statement := by
  intro hall
  obtain ⟨st, s1, h1, l1⟩ := demo_base ⟨true, false, false⟩ List.length (ps := []) (by simp)
  obtain ⟨more, r2, s2, t2, h2, l2, hm, -⟩ := hall _ _ _ _ _ _ _ _
    (demoLog ⟨true, false, false⟩) 0 5 0 h1 l1 smooth_start rfl
    ⟨by decide, by decide⟩ ⟨⟨true, false, false, by simp [demoLog]⟩, by simp [demoLog, demoLog0]⟩
    (by rw [demo_view ⟨true, false, false⟩]; rfl)
  obtain ⟨x, y, rfl⟩ := List.append_of_mem hm
  obtain ⟨i, o, e, g1, g2⟩ := C77_unwatched h2 (t1 := demoLog ⟨true, false, false⟩ ++ x) (n := 0)
    (status := 0) (t2 := y) (by rw [l2]; simp)
  obtain ⟨u, v, g⟩ := List.append_of_mem g1
  obtain ⟨_, _, _, _, _, _, _, _, _, k⟩ := C43_started h2 (t1 := u) (n := 0) (i := i) (o := o) (e := e)
    (t2 := v ++ .proc (.exited 0 0) :: y) (by
      rw [l2, ← List.append_assoc (demoLog _) x, g]; simp)
  cases k
  cases g2

-- the exit of a process with an output, which meets the premises of C77_watched_partial
example : ∃ (sched : List Client.Step) (st : Client.St) (s' : IoSt), Client.steps .flat
      (demoHandlers demoIo List.length) 1000 (Client.start demoAuth) sched (demoState []) =
        (ok (.inl st), s') ∧
    s'.log = demoLog demoIo ++ [.proc (.exited 0 3), .sent (Spec.encode (Spec.exitMsg 5 3))] := by
  obtain ⟨st, s1, h1, l1⟩ := demo_base demoIo List.length (ps := []) (by simp)
  obtain ⟨e, st2, s2, h2, l2⟩ := C77_watched_partial (t := demoLog demoIo) (n := 0) (peer := 5)
    (status := 3) h1 l1 smooth_start rfl ⟨by decide, by decide⟩
    ⟨⟨true, true, false, by simp [demoLog, demoIo], rfl⟩, by simp [demoLog, demoLog0]⟩
    (by rw [demo_view]; rfl)
  exact ⟨_, st2, s2, h2, l2⟩

end

/-! ### C78 services -/

/-- C78 in full: nora_sshd authenticates clients for the service `ssh-connection` only (RFC 4252, 5: if the
requested service does not exist, authentication must not be accepted). -/
def C78_statement : Prop :=
  ∀ (K : Crypto) (E : Ed25519) (number : Bytes → Nat) (ident : Bytes) (s s' : IoSt) (a : Authenticated)
    (pre : List Event) (p user service : Bytes) (arg : AuthArg),
    Spec.Fits ident →
    Server.authenticateNewClient K (Sshd.handlers E number) ident s = (ok a, s') →
    s'.log = s.log ++ pre ++ [.received p, .auth user service arg (some a.user),
      .sent Spec.successReply] → service = b! "ssh-connection"

/-- C78, part: with handlers that accept no other service, it holds for the library. -/
theorem C78_handlers_partial (K : Crypto) (H : Handlers) (ident : Bytes) (s s' : IoSt)
    (a : Authenticated) (hid : Spec.Fits ident)
    (hH : ∀ l user service arg u, H.authenticate l user service arg = ok u →
      service = b! "ssh-connection")
    (h : Server.authenticateNewClient K H ident s = (ok a, s')) :
    ∃ c s1, Host.handleNewClient K ident s = (ok c, s1) ∧ ∃ pre p user arg,
      s'.log = s.log ++ pre ++ [.received p, .auth user (b! "ssh-connection") arg (some a.user),
        .sent Spec.successReply] ∧
      Spec.Attempt c.sessionIdentifier p user (b! "ssh-connection") arg := by
  obtain ⟨c, s1, h1, pre, p, user, service, arg, h2, h3, h4⟩ := C34_no_bypass K H ident s s' a hid h
  cases hH _ _ _ _ _ h4
  exact ⟨c, s1, h1, pre, p, user, arg, h2, h3⟩

/-- C78: the decision of nora_sshd does not depend on the service. -/
theorem C78_ignored (E : Ed25519) (user service service' : Bytes) (arg : AuthArg) :
    Sshd.authenticate E user service arg = Sshd.authenticate E user service' arg := rfl

/-- `sshdRequest` for another service -/
def otherRequest : Bytes :=
  Spec.encode (Spec.request (b! "root") (b! "x") (.publicKeySigned (b! "ssh-ed25519")
    (Spec.tagged (b! "ssh-ed25519") (List.replicate 32 1))
    (Spec.tagged (b! "ssh-ed25519") ((List.replicate 32 1 ++ Spec.signData (List.replicate 32 7)
      (b! "root") (b! "x") (b! "ssh-ed25519")
      (Spec.tagged (b! "ssh-ed25519") (List.replicate 32 1))).take 64))))

/-- A client is authenticated for the service `x`. -/
theorem C78_refuted : ¬ C78_statement := by
  intro hall
  obtain ⟨c, s1, h1, h2, h3, h4⟩ := flat_session
    [Spec.encode (.serviceRequest ⟨b! "ssh-userauth"⟩), otherRequest] []
  have hs := conversation_stream [] [Spec.encode (.serviceRequest ⟨b! "ssh-userauth"⟩), otherRequest] 3
    (by decide +kernel)
  rw [← h2, ← h4] at hs
  have hatt : Spec.Attempt c.sessionIdentifier otherRequest (b! "root") (b! "x") (.publicKey
      (b! "ssh-ed25519") (List.replicate 32 1) _ (Spec.signData c.sessionIdentifier (b! "root") (b! "x")
        (b! "ssh-ed25519") (Spec.tagged (b! "ssh-ed25519") (List.replicate 32 1)))) :=
    .publicKey (legal_encode ⟨by decide, by decide, by decide, by decide, by decide +kernel⟩)
      (by rw [h3]; decide +kernel)
  obtain ⟨a, s', g1, g2, g3, -⟩ := C37_served .flat (Sshd.handlers someEd25519 List.length) _ _ _ _ _ []
    [] _ 4 (by decide) h1 rfl (by decide +kernel) (legal_encode (show Spec.Fits _ by decide)) .nil
    (.mk hatt (by rw [h3]; decide +kernel)) hs
  have := hall _ _ _ _ _ _ _ _ _ _ _ _ (by decide) g1 (by rw [g3, List.append_nil, g2])
  revert this
  decide

/-- handlers that know the service `ssh-connection` only -/
def strictHandlers : Handlers where
  publicKeyExists := fun _ _ _ _ _ => err ()
  authenticate := fun _ _ service arg =>
    if service = b! "ssh-connection" ∧ arg = .password (b! "pw") then ok 1000 else err ()

-- with these a client is authenticated, which meets the premises of C78_handlers_partial
example : (∀ l user service arg u, strictHandlers.authenticate l user service arg = ok u →
      service = b! "ssh-connection") ∧
    ∃ a s', Server.authenticateNewClient .flat strictHandlers (b! "SSH-2.0-nora")
      (clientState [Spec.encode (.serviceRequest ⟨b! "ssh-userauth"⟩),
        Spec.encode (Spec.request (b! "u") (b! "ssh-connection") (.password (b! "pw")))] []) =
        (ok a, s') := by
  refine ⟨fun l user service arg u h => ?_, ?_⟩
  · simp only [strictHandlers] at h
    split at h
    · rename_i g
      exact g.1
    · cases h
  obtain ⟨c, s1, h1, h2, h3, h4⟩ := flat_session [Spec.encode (.serviceRequest ⟨b! "ssh-userauth"⟩),
    Spec.encode (Spec.request (b! "u") (b! "ssh-connection") (.password (b! "pw")))] []
  have hs := conversation_stream [] [Spec.encode (.serviceRequest ⟨b! "ssh-userauth"⟩),
    Spec.encode (Spec.request (b! "u") (b! "ssh-connection") (.password (b! "pw")))] 3 (by decide)
  rw [← h2, ← h4] at hs
  obtain ⟨a, s', g1, -⟩ := C37_served .flat strictHandlers _ _ _ _ _ [] [] _ 1000 (by decide) h1 rfl
    (by decide +kernel) (legal_encode (show Spec.Fits _ by decide)) .nil
    (.mk (.password (legal_encode ⟨by decide, by decide, show Spec.Fits _ by decide⟩)) (by rfl)) hs
  exact ⟨a, s', g1⟩

/-! ### C79 attempts -/

/-- the attempts that were refused -/
def Spec.refusals (t : List Event) : Nat :=
  t.countP fun e => match e with
    | .auth _ _ _ none => true
    | _ => false

/-- C79 in full: there is some limit, less than 10^9, for the number of refused attempts of a client that is
authenticated in the end (RFC 4252, 4: the server should limit the number of failed attempts; 20 is
recommended). -/
def C79_statement : Prop :=
  ∃ limit < 10 ^ 9, ∀ (K : Crypto) (H : Handlers) (ident : Bytes) (s s' : IoSt) (a : Authenticated)
    (t : List Event), Spec.Fits ident → Server.authenticateNewClient K H ident s = (ok a, s') →
    s'.log = s.log ++ t → Spec.refusals t ≤ limit

theorem rounds_refusals {H : Handlers} {sid : Bytes} {l t : List Event} (h : Spec.Rounds H sid l t) :
    Spec.refusals t ≤ (Spec.payloads t).length := by
  induction h with
  | nil => exact Nat.le_refl _
  | cons h _ ih =>
    simp only [Spec.refusals, Spec.payloads, List.countP_append, List.filterMap_append,
      List.length_append] at ih ⊢
    refine Nat.add_le_add ?_ ih
    cases h <;> simp

/-- C79, part: each refused attempt costs the client a packet, besides the one that asks for the service and
the one that is accepted. -/
theorem C79_cost_partial (K : Crypto) (H : Handlers) (ident : Bytes) (s s' : IoSt) (a : Authenticated)
    (t : List Event) (hid : Spec.Fits ident)
    (h : Server.authenticateNewClient K H ident s = (ok a, s')) (hl : s'.log = s.log ++ t) :
    Spec.refusals t + 2 ≤ (Spec.payloads t).length := by
  obtain ⟨c, s1, p, t', u, _, h1, _, h2, h3⟩ := C37_authenticated K H ident s s' a hid h
  rw [hl, List.append_assoc, List.append_assoc] at h1
  have h1 := List.append_cancel_left h1
  have := rounds_refusals h2
  subst h1
  cases h3
  simp only [Spec.refusals, Spec.payloads, List.countP_append, List.filterMap_append,
    List.length_append] at this ⊢
  simp
  omega

/-- a request without credentials -/
def tryNone : Bytes := Spec.encode (Spec.request (b! "u") (b! "ssh-connection") .none)

/-- the same attempt again and again -/
def tries : Nat → List Event
  | 0 => []
  | n + 1 => [.received tryNone, .auth (b! "u") (b! "ssh-connection") .none none,
      .sent Spec.failureReply] ++ tries n

theorem tries_rounds (sid : Bytes) : ∀ (n : Nat) (l : List Event),
    Spec.Rounds someHandlers sid l (tries n)
  | 0, _ => .nil
  | n + 1, _ => .cons (.refused (.none (legal_encode ⟨by decide, by decide, trivial⟩)) (by rfl))
      (tries_rounds sid n _)

theorem tries_refusals : ∀ n, Spec.refusals (tries n) = n
  | 0 => rfl
  | n + 1 => by
    have := tries_refusals n
    simp only [Spec.refusals, tries, List.countP_append] at this ⊢
    rw [this]
    simp
    omega

theorem tries_payloads : ∀ n, Spec.payloads (tries n) = List.replicate n tryNone
  | 0 => rfl
  | n + 1 => by
    have := tries_payloads n
    simp only [Spec.payloads, tries, List.filterMap_append] at this ⊢
    rw [this]
    rfl

theorem conversation_length : ∀ (ps : List Bytes) (n : Nat), (∀ p ∈ ps, p.length ≤ 30000) →
    (conversation n ps).length ≤ 35000 * ps.length := by
  intro ps
  induction ps with
  | nil => exact fun _ _ => Nat.le_refl _
  | cons p ps ih =>
    intro n h
    have h1 := (spkt_of (h p (List.mem_cons_self ..))).2
    have h2 := ih (n + 1) fun q hq => h q (List.mem_cons_of_mem _ hq)
    simp only [conversation, Spec.sealed, List.length_append, sealLength_length, sealBody_length,
      mac_length, List.length_take, List.length_drop, List.length_cons]
    omega

/-- a request with the right password -/
def tryPassword : Bytes := Spec.encode (Spec.request (b! "u") (b! "ssh-connection") (.password (b! "pw")))

/-- the payloads of a client that makes `n` attempts in vain before it uses the password -/
def triesPayloads (n : Nat) : List Bytes :=
  [Spec.encode (.serviceRequest ⟨b! "ssh-userauth"⟩)] ++ List.replicate n tryNone ++ [tryPassword]

/-- A client can be refused `n` times and be authenticated then, for every `n` up to 10^9. -/
theorem C79_any (n : Nat) (hn : n ≤ 10 ^ 9) : ∃ s s' a t,
    Server.authenticateNewClient .flat someHandlers (b! "SSH-2.0-nora") s = (ok a, s') ∧
    s'.log = s.log ++ t ∧ Spec.refusals t = n := by
  have hps : ∀ p ∈ triesPayloads n, p.length ≤ 30000 := by
    intro p hp
    simp only [triesPayloads, List.mem_append, List.mem_cons, List.mem_replicate, List.not_mem_nil,
      or_false] at hp
    rcases hp with (rfl | ⟨_, rfl⟩) | rfl <;> decide
  obtain ⟨c, s1, h1, h2, h3, h4⟩ := flat_session (triesPayloads n) []
  have hs := conversation_stream [] (triesPayloads n) 3 hps
  rw [← h2, ← h4] at hs
  have hlen := conversation_length (triesPayloads n) 3 hps
  have hcount : (triesPayloads n).length = n + 2 := by simp [triesPayloads]
  have hpre : (startBytes false).length + (zpkt (Spec.encode (.kexEcdhInit
      ⟨Crypto.flat.dhPublic [5]⟩))).length + (zpkt (Spec.encode .newKeys)).length ≤ 100000 := by
    decide +kernel
  obtain ⟨client, s', g1, g2, g3, -⟩ := C37_served .flat someHandlers _ _ _ _
    (Spec.encode (.serviceRequest ⟨b! "ssh-userauth"⟩)) [] (tries n)
    [.received tryPassword, .auth (b! "u") (b! "ssh-connection") (.password (b! "pw")) (some 1000),
      .sent Spec.successReply] 1000
    (by decide) h1 rfl
    (by
      simp only [clientState, List.length_append, List.length_nil]
      rw [hcount] at hlen
      omega)
    (legal_encode (show Spec.Fits _ by decide)) (tries_rounds _ n _)
    (.mk (.password (legal_encode ⟨by decide, by decide, show Spec.Fits _ by decide⟩)) (by rfl))
    (by
      have : Spec.payloads ([.received (Spec.encode (.serviceRequest ⟨b! "ssh-userauth"⟩)),
          .sent Spec.acceptReply] ++ tries n ++ [.received tryPassword, .auth (b! "u")
            (b! "ssh-connection") (.password (b! "pw")) (some 1000), .sent Spec.successReply]) =
          triesPayloads n := by
        have := tries_payloads n
        simp only [Spec.payloads, List.filterMap_append] at this ⊢
        rw [this]
        rfl
      rw [this]
      exact hs)
  refine ⟨_, s', client, _, g1, by rw [g3, List.append_assoc, List.append_assoc], ?_⟩
  have := tries_refusals n
  simp only [Spec.refusals, List.countP_append] at this ⊢
  rw [this]
  simp

theorem C79_refuted : ¬ C79_statement := by
  rintro ⟨limit, hlim, hall⟩
  obtain ⟨s, s', a, t, h1, h2, h3⟩ := C79_any (limit + 1) (by omega)
  have := hall _ _ _ _ _ _ _ (by decide) h1 h2
  omega

end Nora
