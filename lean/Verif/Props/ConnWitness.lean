import Verif.Props.ConnProgress
import Verif.Props.Auth
/-
Concrete sessions: they meet the premises of C40-C50 and C60-C62, and they refute those of these
properties that are only proved in part.
-/
namespace Nora
open R

/-- a client that is authenticated -/
def demoAuth : Authenticated where
  send := ⟨List.replicate 32 7, List.replicate 32 7, 4, []⟩
  receive := ⟨List.replicate 32 7, List.replicate 32 7, 5, []⟩
  user := 1000

/-- processes with these streams; a write takes this much -/
def demoHandlers (io : IoSet) (k : Bytes → Nat) : ConnHandlers where
  spawn := fun _ _ _ => ok io
  write := fun _ _ d => ok (k d)

/-- a channel with an empty window -/
def demoOpen : Chan.Open where
  ty := b! "session"
  senderChannel := 5
  windowSize := 0
  maxPacketSize := 0

def demoExec : Chan.Request where
  recipientChannel := 0
  ty := b! "exec"
  wantReply := true
  data := Spec.str (b! "ls")

def demoP0 : Bytes := Spec.encode (.channel (.open demoOpen))
def demoP1 : Bytes := Spec.encode (.channel (.request demoExec))

/-- a connection on which the client opens a channel, runs a command and then sends these payloads -/
def demoState (ps : List Bytes) : IoSt where
  inp := conversation 5 (demoP0 :: demoP1 :: ps)
  out := []
  wcap := none
  rng := fun _ => 0
  log := []

def demoLog0 : List Event := [.received demoP0, .sent (Spec.encode (Spec.confirm 0 demoOpen))]

def demoLog (io : IoSet) : List Event := demoLog0 ++
  [.received demoP1, .proc (.spawn (.exec (b! "ls")) 0),
   .proc (.started 0 io.stdin io.stdout io.stderr), .sent (Spec.encode (Spec.success 5))]

theorem demoOpen_wf : Spec.WF (.channel (.open demoOpen)) := show Spec.Fits _ by decide
theorem demoExec_wf : Spec.WF (.channel (.request demoExec)) := show Spec.Fits _ by decide
theorem demoExec_asks : Spec.Asks demoExec (.exec (b! "ls")) := ⟨1, by decide, .exec (by decide)⟩

theorem demo_view0 : Spec.view demoLog0 = { Spec.View.empty with
    peers := Spec.set (fun _ => none) 0 (some 5)
    stdins := Spec.set (fun _ => none) 0 none } := by
  simp only [Spec.view, demoLog0, List.foldl_cons, List.foldl_nil, Spec.View.next, demoP0,
    msgOf_encode (m := .channel (.open demoOpen)) rfl demoOpen_wf,
    msgOf_encode (m := Spec.confirm 0 demoOpen) rfl trivial, Option.elim]
  rfl

theorem demo_view (io : IoSet) : Spec.view (demoLog io) =
    { peers := Spec.set (fun _ => none) 0 (some 5)
      stdins := Spec.set (Spec.set (fun _ => none) 0 none) 0 (if io.stdin then some 0 else none)
      current := some 0
      procs := 1
      homes := Spec.set (fun _ => none) 0 (some 5) } := by
  rw [demoLog, view_append, demo_view0]
  simp only [List.foldl_cons, List.foldl_nil, Spec.View.next, demoP1,
    msgOf_encode (m := .channel (.request demoExec)) rfl demoExec_wf,
    msgOf_encode (m := Spec.success 5) rfl trivial, Option.elim]
  rfl

theorem demo_stream {ps : List Bytes} (h : ∀ p ∈ ps, p.length ≤ 30000) :
    Spec.Arrive .flat (Spec.keysOf demoAuth.receive) demoAuth.receive.counter.toNat
      (demoP0 :: demoP1 :: ps) (demoState ps).inp [] := by
  have := conversation_stream [] (demoP0 :: demoP1 :: ps) 5 (by
    intro p hp
    rcases List.mem_cons.mp hp with rfl | hp
    · decide
    rcases List.mem_cons.mp hp with rfl | hp
    · decide
    · exact h p hp)
  rw [List.append_nil] at this
  exact this

/-- the session begins like this -/
theorem demo_base (io : IoSet) (k : Bytes → Nat) {ps : List Bytes} (h : ∀ p ∈ ps, p.length ≤ 30000) :
    ∃ st s1, Client.steps .flat (demoHandlers io k) 1000 (Client.start demoAuth) [.message, .message]
        (demoState ps) = (ok (.inl st), s1) ∧ s1.log = demoLog io := by
  obtain ⟨st, s1, h1, h2, _⟩ := exec_open (K := .flat) (H := demoHandlers io k) (user := 1000)
    (a := demoAuth) (sched := []) (s := demoState ps) (s' := demoState ps) (st := Client.start demoAuth)
    (t := []) (q := demoP0) (o := demoOpen) (id := 0) rfl rfl (fun _ _ h => by cases h) rfl
    ⟨by decide, by decide⟩ (demo_stream h) rfl (legal_encode demoOpen_wf) rfl
  have h2 : s1.log = (demoState ps).log ++ demoLog0 := h2
  rcases exec_message (q := demoP1) h1 h2 (fun cut e h => by simp at h) rfl
    ⟨by decide, by decide⟩ (demo_stream h) rfl
    (by
      intro hf
      have := FatalPacket.to hf rfl (legal_encode demoExec_wf)
      rw [demo_view0] at this
      cases this with
      | unsupported h => cases h
      | request h => cases h
      | badRequest h => exact h _ demoExec_asks
      | otherRequest h1 h2 => rw [Asks.unique h1 demoExec_asks] at h2; cases h2)
    (fun ty => ⟨io, rfl⟩) (fun n d => ⟨_, rfl⟩) with
    ⟨st2, s2, b, h3, h4, h5⟩ | ⟨d, _, h3, _⟩
  · refine ⟨st2, s2, h3, ?_⟩
    rw [h4, demoLog]
    show demoLog0 ++ _ = _
    have := Reaction.to h5 rfl (legal_encode demoExec_wf)
    generalize hm : Message.channel (.request demoExec) = m at this
    cases this with
    | run g1 g2 g3 g4 =>
      cases hm
      rw [Asks.unique g2 demoExec_asks] at g3
      cases g3
      cases g4
      rw [demo_view0] at g1 ⊢
      cases g1
      rfl
    | decline g1 g2 g3 =>
      cases hm
      rw [Asks.unique g2 demoExec_asks] at g3
      cases g3
    | _ => cases hm
  · exact absurd (h3.unique rfl rfl (legal_encode demoExec_wf)) (by simp)

/-- the next packet of such a session -/
theorem demo_next {io : IoSet} {k : Bytes → Nat} {ps : List Bytes} (h : ∀ p ∈ ps, p.length ≤ 30000)
    {sched : List Client.Step} {st : Client.St} {s1 : IoSt} {t : List Event} {m : Message}
    (hrun : Client.steps .flat (demoHandlers io k) 1000 (Client.start demoAuth) sched
      (demoState ps) = (ok (.inl st), s1)) (hl : s1.log = t) (hsm : Spec.Smooth sched)
    (hc : Spec.Fresh demoAuth t)
    (hq : (demoP0 :: demoP1 :: ps)[(Spec.payloads t).length]? = some (Spec.encode m))
    (hm : Spec.isReply m = false) (hw : Spec.WF m) (hd : ∀ d, m ≠ .disconnect d)
    (hf : ¬ FatalMsg (Spec.view t) m) :
    Spec.Smooth (sched ++ [.message]) ∧
    ∃ st2 s2 b, Client.steps .flat (demoHandlers io k) 1000 (Client.start demoAuth)
        (sched ++ [.message]) (demoState ps) = (ok (.inl st2), s2) ∧
      s2.log = t ++ .received (Spec.encode m) :: b ∧
      React (demoHandlers io k) 1000 [] t (Spec.encode m) m b := by
  refine ⟨fun cut e hm => ?_, ?_⟩
  · rcases List.mem_append.mp hm with hm | hm
    · exact hsm cut e hm
    · simp at hm
  · rcases exec_message hrun hl hsm rfl hc (demo_stream h) hq
      (fun hf' => hf (FatalPacket.to hf' hm (legal_encode hw)))
      (fun ty => ⟨io, rfl⟩) (fun n d => ⟨_, rfl⟩) with
      ⟨st2, s2, b, h3, h4, h5⟩ | ⟨d, _, h3, _⟩
    · exact ⟨st2, s2, b, h3, h4, Reaction.to h5 hm (legal_encode hw)⟩
    · exact absurd (h3.unique rfl hm (legal_encode hw)).symm (hd d)

/-- something a process does next -/
theorem demo_out {io : IoSet} {k : Bytes → Nat} {ps : List Bytes}
    {sched : List Client.Step} {st : Client.St} {s1 : IoSt} {t : List Event}
    (hrun : Client.steps .flat (demoHandlers io k) 1000 (Client.start demoAuth) sched
      (demoState ps) = (ok (.inl st), s1)) (hl : s1.log = t) (hsm : Spec.Smooth sched)
    (hc : Spec.Fresh demoAuth t) {b : List Event}
    (hb : Spec.Block (demoHandlers io k) 1000 (fun _ => False) [] t b) (hp : Spec.payloads b = []) :
    ∃ e, Spec.Smooth (sched ++ [.event .none e]) ∧
    ∃ st2 s2, Client.steps .flat (demoHandlers io k) 1000 (Client.start demoAuth)
        (sched ++ [.event .none e]) (demoState ps) = (ok (.inl st2), s2) ∧ s2.log = t ++ b := by
  obtain ⟨e, st2, s2, h1, h2⟩ := exec_output hrun hl (fun n => hsm.not_drops (by simp)) rfl hc hb hp
  refine ⟨e, fun cut e' hm => ?_, st2, s2, h1, h2⟩
  rcases List.mem_append.mp hm with hm | hm
  · exact hsm cut e' hm
  · simp at hm
    exact hm.1

/-- the rest of a session: input, output, the end of both, an exit, IGNORE and DISCONNECT -/
def demoData : Message := .channel (.data ⟨0, b! "in"⟩)
def demoEof : Message := .channel (.eof ⟨0⟩)
def demoIgnore : Message := .ignore ⟨b! "x"⟩
def demoBye : Message := .disconnect ⟨11, [], []⟩

theorem demo_data_wf : Spec.WF demoData := show Spec.Fits _ by decide
theorem demo_eof_wf : Spec.WF demoEof := trivial
theorem demo_ignore_wf : Spec.WF demoIgnore := show Spec.Fits _ by decide
theorem demo_bye_wf : Spec.WF demoBye := ⟨by decide, by decide⟩

/-- streams for input and output -/
def demoIo : IoSet := ⟨true, true, false⟩

/-- a session that runs to its end -/
example : ∃ sched s', Client.steps .flat (demoHandlers demoIo List.length) 1000
      (Client.start demoAuth) sched (demoState [Spec.encode demoData, Spec.encode demoEof,
        Spec.encode demoIgnore, Spec.encode demoBye]) = (ok (.inr ()), s') ∧
    s'.log = demoLog demoIo ++
      ([.received (Spec.encode demoData), .proc (.stdin 0 (b! "in"))] ++
       [.proc (.stdout 0 (b! "out")), .sent (Spec.encode (Spec.dataMsg 5 (b! "out")))] ++
       [.received (Spec.encode demoEof), .proc (.stdinClosed 0)] ++
       [.proc (.exited 0 3), .sent (Spec.encode (Spec.exitMsg 5 3))] ++
       [.proc (.stdout 0 []), .sent (Spec.encode (Spec.eofMsg 5)),
        .sent (Spec.encode (Spec.closeMsg 5))] ++
       [.received (Spec.encode demoIgnore)] ++ [.received (Spec.encode demoBye)]) := by
  have hps : ∀ p ∈ [Spec.encode demoData, Spec.encode demoEof,
        Spec.encode demoIgnore, Spec.encode demoBye], p.length ≤ 30000 := by decide
  obtain ⟨st, s1, h1, l1⟩ := demo_base demoIo List.length hps
  obtain ⟨m2, st2, s2, b2, h2, l2, r2⟩ := demo_next hps h1 l1 (fun cut e h => by simp at h)
    ⟨by decide, by decide⟩ (m := demoData) rfl rfl demo_data_wf (by simp [demoData]) (by
      rw [demo_view]
      intro h
      cases h with
      | unsupported h => cases h
      | data h => cases h
      | noStdin h => cases h)
  have hv1 := demo_view demoIo
  have r2 : React _ _ _ _ _ (.channel (.data ⟨0, b! "in"⟩)) b2 := r2
  cases r2 with
  | data g1 g2 g3 =>
  rw [hv1] at g2
  cases g2
  cases g3
  have l2 : s2.log = demoLog demoIo ++ ([.received (Spec.encode demoData),
    .proc (.stdin 0 (b! "in"))]) := l2
  generalize ht2 : demoLog demoIo ++ ([Event.received (Spec.encode demoData),
    .proc (.stdin 0 (b! "in"))]) = t2 at l2
  have hv2 : Spec.view t2 = Spec.view (demoLog demoIo) := by
    rw [← ht2, view_append]
    simp only [List.foldl_cons, List.foldl_nil, Spec.View.next,
      msgOf_encode (m := demoData) rfl demo_data_wf, Option.elim]
    rfl
  obtain ⟨e3, m3, st3, s3, h3, l3⟩ := demo_out h2 l2 m2 (by subst ht2; exact ⟨by decide, by decide⟩)
    (.stdout (n := 0) (peer := 5) (d := b! "out")
      (by subst ht2; exact ⟨⟨true, false, by simp [demoLog, demoIo]⟩, by simp [demoLog, demoLog0]⟩)
      (by rw [hv2, hv1]; rfl)
      (by decide) (by decide)) rfl
  generalize ht3 : t2 ++ [Event.proc (.stdout 0 (b! "out")),
    .sent (Spec.encode (Spec.dataMsg 5 (b! "out")))] = t3 at l3
  have hv3 : Spec.view t3 = Spec.view (demoLog demoIo) := by
    rw [← ht3, view_append, hv2]
    simp only [List.foldl_cons, List.foldl_nil, Spec.View.next,
      msgOf_encode (m := Spec.dataMsg 5 (b! "out")) rfl (show Spec.Fits _ by decide), Option.elim]
    rfl
  obtain ⟨m4, st4, s4, b4, h4, l4, r4⟩ := demo_next hps h3 l3 m3
    (by subst ht3 ht2; exact ⟨by decide, by decide⟩) (m := demoEof)
    (by subst ht3 ht2; rfl) rfl demo_eof_wf (by simp [demoEof]) (by
      rw [hv3, hv1]
      intro h
      cases h with
      | unsupported h => cases h
      | eof h => cases h)
  have r4 : React _ _ _ _ _ (.channel (.eof ⟨0⟩)) b4 := r4
  cases r4 with
  | eof g1 =>
  rw [hv3, hv1] at l4
  have l4 : s4.log = t3 ++ ([.received (Spec.encode demoEof), .proc (.stdinClosed 0)]) := l4
  generalize ht4 : t3 ++ ([Event.received (Spec.encode demoEof), .proc (.stdinClosed 0)]) = t4 at l4
  have hv4 : (Spec.view t4).homes 0 = some 5 := by
    rw [← ht4, view_append, hv3, hv1]
    simp only [List.foldl_cons, List.foldl_nil, Spec.View.next,
      msgOf_encode (m := demoEof) rfl demo_eof_wf, Option.elim]
    rfl
  have hst : ∀ {t}, demoLog demoIo <+: t → Event.proc (.started 0 true true false) ∈ t := by
    rintro _ ⟨u, rfl⟩
    simp [demoLog, demoIo]
  have hpre4 : demoLog demoIo <+: t4 := by
    subst ht4 ht3 ht2
    exact ⟨_, by simp only [List.append_assoc]; rfl⟩
  obtain ⟨e5, m5, st5, s5, h5, l5⟩ := demo_out h4 l4 m4
    (by subst ht4 ht3 ht2; exact ⟨by decide, by decide⟩)
    (.exit (n := 0) (peer := 5) (status := 3)
      ⟨⟨true, true, false, hst hpre4, rfl⟩, by
        subst ht4 ht3 ht2; simp [demoLog, demoLog0]⟩ hv4) rfl
  generalize ht5 : t4 ++ [Event.proc (.exited 0 3), .sent (Spec.encode (Spec.exitMsg 5 3))] = t5 at l5
  have hv5 : (Spec.view t5).homes 0 = some 5 := by
    rw [← ht5, view_append]
    simp only [List.foldl_cons, List.foldl_nil, Spec.View.next,
      msgOf_encode (m := Spec.exitMsg 5 3) rfl (wf_exitMsg _ _), Option.elim]
    exact hv4
  obtain ⟨e6, m6, st6, s6, h6, l6⟩ := demo_out h5 l5 m5
    (by subst ht5 ht4 ht3 ht2; exact ⟨by decide, by decide⟩)
    (.stdoutEnd (n := 0) (peer := 5)
      ⟨⟨true, false, by subst ht5; exact List.mem_append_left _ (hst hpre4)⟩, by
        subst ht5 ht4 ht3 ht2; simp [demoLog, demoLog0]⟩ hv5) rfl
  generalize ht6 : t5 ++ [Event.proc (.stdout 0 []), .sent (Spec.encode (Spec.eofMsg 5)),
        .sent (Spec.encode (Spec.closeMsg 5))] = t6 at l6
  obtain ⟨m7, st7, s7, b7, h7, l7, r7⟩ := demo_next hps h6 l6 m6
    (by subst ht6 ht5 ht4 ht3 ht2; exact ⟨by decide, by decide⟩) (m := demoIgnore)
    (by subst ht6 ht5 ht4 ht3 ht2; rfl) rfl demo_ignore_wf (by simp [demoIgnore]) (by
      intro h
      have h : FatalMsg _ (.ignore ⟨b! "x"⟩) := h
      cases h with
      | unsupported h => cases h)
  have r7 : React _ _ _ _ _ (.ignore ⟨b! "x"⟩) b7 := r7
  cases r7
  rcases exec_message (t := t6 ++ [.received (Spec.encode demoIgnore)]) h7 l7 m7 rfl
    (by subst ht6 ht5 ht4 ht3 ht2; exact ⟨by decide, by decide⟩) (demo_stream hps)
    (by subst ht6 ht5 ht4 ht3 ht2; rfl)
    (fun hf' => by
      have h := FatalPacket.to hf' (m := demoBye) rfl (legal_encode demo_bye_wf)
      have h : FatalMsg _ (.disconnect ⟨11, [], []⟩) := h
      cases h with
      | unsupported h => cases h)
    (fun ty => ⟨_, rfl⟩) (fun n d => ⟨_, rfl⟩) with
    ⟨st2, s2, b, k3, k4, k5⟩ | ⟨d, s8, _, h8, l8⟩
  · have r : React _ _ _ _ _ (.disconnect ⟨11, [], []⟩) b :=
      Reaction.to k5 (m := demoBye) rfl (legal_encode demo_bye_wf)
    cases r
  · refine ⟨_, s8, h8, ?_⟩
    rw [l8]
    subst ht6 ht5 ht4 ht3 ht2
    simp only [List.append_assoc]
    rfl

/-! ### refutations -/

/-- C42 in full: a request that can be answered gets exactly one reply, as long as the session goes
on. -/
def C42_statement : Prop :=
  ∀ (K : Crypto) (H : ConnHandlers) (user : Nat) (a : Authenticated) (sched : List Client.Step)
    (s s' : IoSt) (st : Client.St) (t1 t2 : List Event) (q : Bytes) (req : Chan.Request),
    Client.steps K H user (Client.start a) sched s = (ok (.inl st), s') →
    s'.log = s.log ++ (t1 ++ .received q :: t2) → Spec.Legal (.channel (.request req)) q →
    req.wantReply = true → (Spec.replies (Spec.untilPacket t2)).length = 1

/-- the process 0 is read from -/
theorem demo_read {io : IoSet} {k : Bytes → Nat} {ps : List Bytes} {st : Client.St} {s1 : IoSt}
    {t : List Event} {sched : List Client.Step} (hio : io.stdout = true)
    (hrun : Client.steps .flat (demoHandlers io k) 1000 (Client.start demoAuth) sched
      (demoState ps) = (ok (.inl st), s1)) (hl : s1.log = t) (hsm : Spec.Smooth sched)
    (hpre : demoLog io <+: t) (hnot : .proc (.stdout 0 []) ∉ t) (hv : (Spec.view t).homes 0 = some 5) :
    ∃ (i : Nat), st.stdouts[i]? = some (0, 5) := by
  obtain ⟨i, peer, h1, h2⟩ := (C44_reading_partial hrun (fun n => hsm.not_drops (by simp)) hl 0).1
    ⟨⟨io.stdin, io.stderr, by
      obtain ⟨u, rfl⟩ := hpre
      simp [demoLog, hio]⟩, hnot⟩
  rw [hv] at h2
  cases h2
  exact ⟨i, h1⟩

theorem smooth_start : Spec.Smooth [.message, .message] := fun cut e h => by simp at h

/-- the output of a process is read while a second one is started: the second request gets no reply -/
theorem C42_refuted : ¬ C42_statement := by
  intro hall
  have hps : ∀ p ∈ [demoP1], p.length ≤ 30000 := by decide
  obtain ⟨st, s1, h1, l1⟩ := demo_base demoIo List.length hps
  obtain ⟨i, hi⟩ := demo_read rfl h1 l1 smooth_start (List.prefix_refl _)
    (by simp [demoLog, demoLog0]) (by rw [demo_view]; rfl)
  obtain ⟨st2, s2, h2, l2⟩ := exec_spawnCut (t := demoLog demoIo) (q := demoP1) (r := demoExec) (peer := 5) h1 l1
    smooth_start rfl ⟨by decide, by decide⟩ (demo_stream hps) rfl (legal_encode demoExec_wf)
    (by rw [demo_view]; rfl) demoExec_asks rfl hi (d := b! "x") (by decide) (by decide)
  have := hall _ _ _ _ _ _ _ _ _ _ _ _ h2 l2 (legal_encode demoExec_wf) rfl
  have hd : Spec.msgOf (Spec.encode (Spec.dataMsg 5 (b! "x"))) = some (Spec.dataMsg 5 (b! "x")) :=
    msgOf_encode rfl (show Spec.Fits _ by decide)
  simp only [Spec.untilPacket, Spec.replies, List.takeWhile, List.filterMap, hd] at this
  simp only [Spec.dataMsg] at this
  cases this

/-- C44 in full: a process that was started is read from until its output ends. -/
def C44_statement : Prop :=
  ∀ (K : Crypto) (H : ConnHandlers) (user : Nat) (a : Authenticated) (sched : List Client.Step)
    (s s' : IoSt) (st : Client.St) (t : List Event) (n : Nat),
    Client.steps K H user (Client.start a) sched s = (ok (.inl st), s') →
    s'.log = s.log ++ t → Spec.Reading t n → ∃ peer, (n, peer) ∈ st.stdouts

/-- the output of a process is read when the reply for a second one should be written: the second one
runs, but it is never read from -/
theorem C44_refuted : ¬ C44_statement := by
  intro hall
  have hps : ∀ p ∈ [demoP1], p.length ≤ 30000 := by decide
  obtain ⟨st, s1, h1, l1⟩ := demo_base ⟨false, true, false⟩ List.length hps
  obtain ⟨i, hi⟩ := demo_read rfl h1 l1 smooth_start (List.prefix_refl _)
    (by simp [demoLog, demoLog0]) (by rw [demo_view]; rfl)
  obtain ⟨st2, s2, h2, l2, h3, _⟩ := exec_writeCut (t := demoLog ⟨false, true, false⟩) (q := demoP1) (r := demoExec) (peer := 5) h1 l1
    smooth_start rfl ⟨by decide, by decide⟩ (demo_stream hps) rfl (legal_encode demoExec_wf)
    (by rw [demo_view]; rfl) (by rw [demo_view]; rfl) demoExec_asks rfl rfl
    (io := ⟨false, true, false⟩) rfl hi (d := b! "x") (by decide) (by decide)
  rw [demo_view] at l2
  obtain ⟨peer, hm⟩ := hall _ _ _ _ _ _ _ _ _ 1 h2 l2
    ⟨⟨false, false, by simp⟩, by simp [demoLog, demoLog0]⟩
  rw [h3] at hm
  obtain ⟨_, hg⟩ := good_of (t := demoLog ⟨false, true, false⟩) h1 l1
  have := (hg.agrees.outs _ hm).1
  rw [demo_view] at this
  cases this

/-- C45 in full: each process gets exactly the data sent for it, as long as the session goes on. -/
def C45_statement : Prop :=
  ∀ (K : Crypto) (H : ConnHandlers) (user : Nat) (a : Authenticated) (sched : List Client.Step)
    (s s' : IoSt) (st : Client.St) (t : List Event) (n : Nat),
    Client.steps K H user (Client.start a) sched s = (ok (.inl st), s') →
    s'.log = s.log ++ t → Spec.taken n t = Spec.inputs n Spec.View.empty t

theorem demo_input : Spec.inputs 0 (Spec.view (demoLog demoIo)) [.received (Spec.encode demoData)] =
    b! "in" := by
  rw [demo_view]
  simp only [Spec.inputs, Spec.inputOf, msgOf_encode (m := demoData) rfl demo_data_wf]
  rfl

theorem demo_no_input : Spec.taken 0 (demoLog demoIo) = [] ∧
    Spec.inputs 0 Spec.View.empty (demoLog demoIo) = [] := by
  refine ⟨rfl, ?_⟩
  simp only [demoLog, demoLog0, List.cons_append, List.nil_append, Spec.inputs, Spec.inputOf, demoP0,
    demoP1, msgOf_encode (m := .channel (.open demoOpen)) rfl demoOpen_wf,
    msgOf_encode (m := .channel (.request demoExec)) rfl demoExec_wf]

/-- a process that takes only one byte with a write does not get the second one -/
theorem C45_refuted : ¬ C45_statement := by
  intro hall
  have hps : ∀ p ∈ [Spec.encode demoData], p.length ≤ 30000 := by decide
  obtain ⟨st, s1, h1, l1⟩ := demo_base demoIo (fun _ => 1) hps
  obtain ⟨m2, st2, s2, b2, h2, l2, r2⟩ := demo_next hps h1 l1 smooth_start
    ⟨by decide, by decide⟩ (m := demoData) rfl rfl demo_data_wf (by simp [demoData]) (by
      rw [demo_view]
      intro h
      cases h with
      | unsupported h => cases h
      | data h => cases h
      | noStdin h => cases h)
  have r2 : React _ _ _ _ _ (.channel (.data ⟨0, b! "in"⟩)) b2 := r2
  cases r2 with
  | data g1 g2 g3 =>
  rw [demo_view] at g2
  cases g2
  cases g3
  have := hall _ _ _ _ _ _ _ _ (demoLog demoIo ++ _) 0 h2 l2
  rw [taken_append, inputs_append, demo_no_input.1, demo_no_input.2] at this
  rw [← List.singleton_append, inputs_append] at this
  rw [show (demoLog demoIo).foldl Spec.View.next Spec.View.empty = Spec.view (demoLog demoIo) from rfl,
    demo_input] at this
  simp [Spec.taken, Spec.inputs, Spec.inputOf] at this

/-- nor does a process that takes all it is given get data that arrives while the output of a process is
read -/
theorem C45_refuted_cut : ¬ ∀ (K : Crypto) (H : ConnHandlers) (user : Nat) (a : Authenticated)
    (sched : List Client.Step) (s s' : IoSt) (st : Client.St) (t : List Event) (n : Nat),
    Spec.TakesAll H → Client.steps K H user (Client.start a) sched s = (ok (.inl st), s') →
    s'.log = s.log ++ t → Spec.taken n t = Spec.inputs n Spec.View.empty t := by
  intro hall
  have hps : ∀ p ∈ [Spec.encode demoData], p.length ≤ 30000 := by decide
  obtain ⟨st, s1, h1, l1⟩ := demo_base demoIo List.length hps
  obtain ⟨i, hi⟩ := demo_read rfl h1 l1 smooth_start (List.prefix_refl _)
    (by simp [demoLog, demoLog0]) (by rw [demo_view]; rfl)
  obtain ⟨st2, s2, h2, l2⟩ := exec_stdinCut (t := demoLog demoIo) (q := Spec.encode demoData) (x := ⟨0, b! "in"⟩)
    (peer := 5) (m := 0) h1 l1
    smooth_start rfl ⟨by decide, by decide⟩ (demo_stream hps) rfl (legal_encode demo_data_wf)
    (by rw [demo_view]; rfl) (by rw [demo_view]; rfl) hi (d := b! "x") (by decide) (by decide)
  have := hall _ _ _ _ _ _ _ _ (demoLog demoIo ++ _) 0 (by
    intro l n d k h
    cases h
    exact Nat.le_refl _) h2 l2
  rw [taken_append, inputs_append, demo_no_input.1, demo_no_input.2] at this
  rw [← List.singleton_append, inputs_append] at this
  rw [show (demoLog demoIo).foldl Spec.View.next Spec.View.empty = Spec.view (demoLog demoIo) from rfl,
    demo_input] at this
  simp [Spec.taken, Spec.inputs, Spec.inputOf] at this

/-- C46 in full: after CLOSE, nothing more is sent for a channel, but for the confirmation that opens a
channel with this number again. -/
def C46_statement : Prop :=
  ∀ (K : Crypto) (H : ConnHandlers) (user : Nat) (a : Authenticated) (sched : List Client.Step)
    (s s' : IoSt) (st : Client.St) (t1 t2 t3 : List Event) (p q : Bytes) (c : Chan.ChanOnly)
    (m : Message),
    Client.steps K H user (Client.start a) sched s = (ok (.inl st), s') →
    s'.log = s.log ++ (t1 ++ .sent p :: (t2 ++ .sent q :: t3)) →
    Spec.Legal (.channel (.close c)) p → Spec.Legal m q → Spec.isReply m = false →
    Spec.recipient m = some c.recipientChannel →
    (∀ x y, .sent x ∈ t2 → ¬ Spec.Legal (.channel (.openConfirmation y)) x) →
    ∃ x, m = .channel (.openConfirmation x)

/-- a process whose output ends before it does -/
theorem demo_end (ps : List Bytes) (hps : ∀ p ∈ ps, p.length ≤ 30000) : ∃ sched st s',
    Client.steps .flat (demoHandlers demoIo List.length) 1000 (Client.start demoAuth) sched
      (demoState ps) = (ok (.inl st), s') ∧ s'.log = demoLog demoIo ++
      [.proc (.stdout 0 []), .sent (Spec.encode (Spec.eofMsg 5)),
        .sent (Spec.encode (Spec.closeMsg 5))] ++
      [.proc (.exited 0 3), .sent (Spec.encode (Spec.exitMsg 5 3))] := by
  obtain ⟨st, s1, h1, l1⟩ := demo_base demoIo List.length hps
  obtain ⟨e2, m2, st2, s2, h2, l2⟩ := demo_out h1 l1 smooth_start ⟨by decide, by decide⟩
    (.stdoutEnd (n := 0) (peer := 5)
      ⟨⟨true, false, by simp [demoLog, demoIo]⟩, by simp [demoLog, demoLog0]⟩
      (by rw [demo_view]; rfl)) rfl
  obtain ⟨e3, m3, st3, s3, h3, l3⟩ := demo_out h2 l2 m2 ⟨by decide, by decide⟩
    (.exit (n := 0) (peer := 5) (status := 3)
      ⟨⟨true, true, false, by simp [demoLog, demoIo], rfl⟩, by simp [demoLog, demoLog0]⟩
      (by
        rw [view_append, demo_view]
        simp only [List.foldl_cons, List.foldl_nil, Spec.View.next,
          msgOf_encode (m := Spec.eofMsg 5) rfl trivial,
          msgOf_encode (m := Spec.closeMsg 5) rfl trivial, Option.elim]
        rfl)) rfl
  exact ⟨_, st3, s3, h3, l3⟩

/-- the exit status is sent after CLOSE -/
theorem C46_refuted : ¬ C46_statement := by
  intro hall
  obtain ⟨sched, st, s', h1, l1⟩ := demo_end [] (by simp)
  obtain ⟨x, hx⟩ := hall _ _ _ _ _ _ _ _
    (demoLog demoIo ++ [.proc (.stdout 0 []), .sent (Spec.encode (Spec.eofMsg 5))])
    [.proc (.exited 0 3)] [] _ _ ⟨5⟩ (Spec.exitMsg 5 3) h1
    (by rw [l1]; simp only [List.append_assoc]; rfl)
    (legal_encode (m := Spec.closeMsg 5) trivial) (legal_encode (wf_exitMsg _ _)) rfl rfl (by simp)
  simp [Spec.exitMsg] at hx

/-- C47 in full: while the session goes on, the packets that have not been received yet are still to
come. -/
def C47_statement : Prop :=
  ∀ (K : Crypto) (H : ConnHandlers) (user : Nat) (a : Authenticated) (sched : List Client.Step)
    (s s' : IoSt) (st : Client.St) (t : List Event) (ps : List Bytes) (rest : Bytes),
    Client.steps K H user (Client.start a) sched s = (ok (.inl st), s') →
    s'.log = s.log ++ t →
    Spec.Arrive K (Spec.keysOf a.receive) a.receive.counter.toNat ps s.inp rest →
    (Spec.payloads t).length ≤ ps.length →
    Spec.Arrive K (Spec.keysOf st.receive) st.receive.counter.toNat
      (ps.drop (Spec.payloads t).length) s'.inp rest

/-- the length of a stream of one packet -/
theorem stream_length {K : Crypto} {k : Spec.Keys} {n : Nat} {p inp : Bytes}
    (h : Spec.Arrive K k n [p] inp []) : inp.length % 8 = 4 ∧ 20 ≤ inp.length := by
  obtain ⟨raw, w, ⟨padding, hb, _, hm, h8, _⟩, _, rfl, rfl⟩ := h
  have : raw.length = 5 + p.length + padding.length := by rw [hb]; simp [Spec.u32]; omega
  have hm : (0 + (1 + p.length + padding.length)) % 8 = 0 := hm
  simp only [Spec.sealed, List.length_append, sealLength_length, sealBody_length,
          mac_length, List.length_take, List.length_drop, List.length_nil]
  omega

/-- the output of a process is read when three bytes of a packet have arrived: these bytes are lost -/
theorem C47_refuted : ¬ C47_statement := by
  intro hall
  have hps : ∀ p ∈ [Spec.encode demoIgnore], p.length ≤ 30000 := by decide
  obtain ⟨st, s1, h1, l1⟩ := demo_base demoIo List.length hps
  obtain ⟨i, hi⟩ := demo_read rfl h1 l1 smooth_start (List.prefix_refl _)
    (by simp [demoLog, demoLog0]) (by rw [demo_view]; rfl)
  have hs1 : Spec.Arrive .flat _ _ [Spec.encode demoIgnore] s1.inp [] :=
    hall _ _ _ _ _ _ _ _ (demoLog demoIo) _ _ h1 l1 (demo_stream hps) (by decide)
  obtain ⟨g1, g2⟩ := stream_length hs1
  obtain ⟨st2, s2, h2, l2, hinp⟩ := exec_readCut (t := demoLog demoIo) h1 l1 rfl
    ⟨by decide, by decide⟩ (by omega) hi (d := b! "x") (by decide) (by decide)
  have hs2 : Spec.Arrive .flat _ _ [Spec.encode demoIgnore] s2.inp [] :=
    hall _ _ _ _ _ _ _ _ (demoLog demoIo ++ _) _ _ h2 l2 (demo_stream hps) (by decide)
  obtain ⟨g3, _⟩ := stream_length hs2
  rw [hinp, List.length_drop] at g3
  omega

/-- the number of bytes the client allows to be sent to its channel `peer` -/
noncomputable def Spec.granted (peer : UInt32) (v : Spec.View) : List Event → Nat
  | [] => 0
  | e :: t =>
    (match e with
     | .received p => match Spec.msgOf p with
       | some (.channel (.open o)) => if o.senderChannel = peer then o.windowSize.toNat else 0
       | some (.channel (.windowAdjust w)) =>
         if v.peers w.recipientChannel = some peer then w.addBytes.toNat else 0
       | _ => 0
     | _ => 0) + Spec.granted peer (v.next e) t

/-- C48 in full -/
def C48_statement : Prop :=
  ∀ (K : Crypto) (H : ConnHandlers) (user : Nat) (a : Authenticated) (sched : List Client.Step)
    (s s' : IoSt) (st : Client.St) (t : List Event) (peer : UInt32),
    Client.steps K H user (Client.start a) sched s = (ok (.inl st), s') →
    s'.log = s.log ++ t → (Spec.dataTo peer t).length ≤ Spec.granted peer Spec.View.empty t

/-- data is sent although the window is empty -/
theorem C48_refuted : ¬ C48_statement := by
  intro hall
  obtain ⟨st, s1, h1, l1⟩ := demo_base demoIo List.length (ps := []) (by simp)
  obtain ⟨e2, m2, st2, s2, h2, l2⟩ := demo_out h1 l1 smooth_start ⟨by decide, by decide⟩
    (.stdout (n := 0) (peer := 5) (d := b! "x")
      ⟨⟨true, false, by simp [demoLog, demoIo]⟩, by simp [demoLog, demoLog0]⟩
      (by rw [demo_view]; rfl) (by decide) (by decide)) rfl
  have := hall _ _ _ _ _ _ _ _ (demoLog demoIo ++ _) 5 h2 l2
  rw [dataTo_append] at this
  simp only [demoLog, demoLog0, List.cons_append, List.nil_append, Spec.granted, demoP0, demoP1,
    msgOf_encode (m := .channel (.open demoOpen)) rfl demoOpen_wf,
    msgOf_encode (m := .channel (.request demoExec)) rfl demoExec_wf] at this
  have h3 : Spec.dataTo 5 [.proc (.stdout 0 (b! "x")), .sent (Spec.encode (Spec.dataMsg 5 (b! "x")))] =
      b! "x" := by
    simp only [Spec.dataTo, List.flatMap_cons, List.flatMap_nil,
      msgOf_encode (m := Spec.dataMsg 5 (b! "x")) rfl (show Spec.Fits _ by decide)]
    rfl
  rw [h3, List.length_append] at this
  have : _ + 1 ≤ 0 := this
  omega

/-- C50 in full: if the handlers do not fail, all output can be read, all processes can be waited for, and the packet counters are not
exhausted, then the server does not panic. -/
def C50_statement : Prop :=
  ∀ (K : Crypto) (H : ConnHandlers) (user : Nat) (a : Authenticated) (sched : List Client.Step)
    (s s' : IoSt) (r : R Client.Stop (Client.St ⊕ Unit)) (t : List Event),
    (∀ log ty, ∃ io, H.spawn log user ty = ok io) → (∀ log n d, ∃ k, H.write log n d = ok k) →
    ¬ Spec.ReadFails sched → Client.steps K H user (Client.start a) sched s = (r, s') →
    s'.log = s.log ++ t → Spec.Fresh a t → r ≠ R.panic

/-- C50 is false: in each session without interruptions, each of the packets of `Spec.FatalPacket` makes
the server panic as soon as it arrives. -/
theorem C50_always {K : Crypto} {H : ConnHandlers} {user : Nat} {a : Authenticated}
    {sched : List Client.Step} {s s' : IoSt} {st : Client.St} {t : List Event}
    (hrun : Client.steps K H user (Client.start a) sched s = (ok (.inl st), s'))
    (hl : s'.log = s.log ++ t) (hsm : Spec.Smooth sched) (hc : Spec.Fresh a t)
    {ps : List Bytes} {rest q : Bytes}
    (hs : Spec.Arrive K (Spec.keysOf a.receive) a.receive.counter.toNat ps s.inp rest)
    (hq : ps[(Spec.payloads t).length]? = some q) (hf : Spec.FatalPacket (Spec.view t) q) :
    ∃ s2, Client.steps K H user (Client.start a) (sched ++ [.message]) s = (R.panic, s2) ∧
      s2.log = s.log ++ (t ++ [.received q]) := by
  obtain ⟨u, hu⟩ := exec_logged hrun hl hsm hc hs hq
  rcases hx : Client.steps K H user (Client.start a) (sched ++ [.message]) s with ⟨r, s2⟩
  rw [hx] at hu
  obtain ⟨h1, h2⟩ := C50_fatal hx hu hf
  subst h1 h2
  exact ⟨s2, hx, hu⟩

/-- data for a channel that was never opened -/
theorem C50_refuted : ¬ C50_statement := by
  intro hall
  have hw : Spec.WF (.channel (.data ⟨7, b! "in"⟩)) := show Spec.Fits _ by decide
  have hps : ∀ p ∈ [Spec.encode (.channel (.data ⟨7, b! "in"⟩))], p.length ≤ 30000 := by decide
  obtain ⟨st, s1, h1, l1⟩ := demo_base demoIo List.length hps
  obtain ⟨s2, h2, l2⟩ := C50_always (t := demoLog demoIo) h1 l1 smooth_start ⟨by decide, by decide⟩
    (demo_stream hps) rfl (.data (legal_encode hw) (by rw [demo_view]; rfl))
  exact hall _ _ _ _ _ _ _ _ (demoLog demoIo ++ _) (fun _ _ => ⟨_, rfl⟩) (fun _ _ _ => ⟨_, rfl⟩)
    (by rintro ⟨cut, i, h | h⟩ <;> simp at h) h2 l2 ⟨by decide, by decide⟩ rfl

end Nora
