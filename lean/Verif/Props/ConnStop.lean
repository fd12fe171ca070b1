import Verif.Props.ConnEnd
import Verif.Lemmas.ConnQuiet
/-
C46-C50, C60: after CLOSE, the streams of packets, flow control, and the end of a session.
-/
namespace Nora
open R

section
variable {K : Crypto} {H : ConnHandlers} {user : Nat} {a : Authenticated} {sched : List Client.Step}
  {s s' : IoSt} {r : R Client.Stop (Client.St ⊕ Unit)}

/-! ### after CLOSE -/

theorem mem_of_snoc_eq {t0 t1 x : List Event} {e f : Event} (h : t1 ++ e :: x = t0 ++ [f]) :
    ∀ y ∈ t1, y ∈ t0 := by
  intro y hy
  rcases List.append_eq_append_iff.mp h with ⟨z, h1, h2⟩ | ⟨z, h1, h2⟩
  · rw [h1]
    exact List.mem_append_left _ hy
  · cases z with
    | nil =>
      rw [List.append_nil] at h1
      rw [← h1]
      exact hy
    | cons w z =>
      obtain ⟨rfl, h3⟩ := List.cons.inj h2
      obtain ⟨rfl, h4⟩ := List.append_eq_nil_iff.mp h3.symm
      cases h4

/-- a second CLOSE is for another process -/
theorem close_other {t0 t1 t2 u : List Event} {p : Bytes} {k k' : Nat} {c c' : UInt32}
    (h1 : t1 = t0 ++ [.proc (.stdout k []), .sent (Spec.encode (Spec.eofMsg c))])
    (g1 : t1 ++ .sent p :: t2 = u ++ [.proc (.stdout k' []), .sent (Spec.encode (Spec.eofMsg c'))])
    (g2 : Spec.Reading u k') : k' ≠ k := by
  rintro rfl
  have hend : .proc (.stdout k' []) ∈ t1 := by rw [h1]; simp
  have hx : (t1 ++ .sent p :: t2) = (u ++ [.proc (.stdout k' [])]) ++
      [.sent (Spec.encode (Spec.eofMsg c'))] := by rw [g1]; simp
  cases t2 using snoc_induction with
  | h0 =>
    have e4 : t1 = u ++ [.proc (.stdout k' [])] := List.append_inj_left' hx rfl
    have e5 : (t0 ++ [.proc (.stdout k' [])]) ++ [Event.sent (Spec.encode (Spec.eofMsg c))] =
        u ++ [.proc (.stdout k' [])] := by
      rw [← e4, h1]; simp
    have := List.append_inj_right' e5 rfl
    simp at this
  | h1 t2 e _ =>
    rw [← List.cons_append, ← List.append_assoc] at hx
    exact absurd (mem_of_snoc_eq (List.append_inj_left' hx rfl) _ hend) g2.2

/-- What may be sent to a channel for which CLOSE was sent: `n` is the process whose standard output has
ended with this CLOSE, `t` are the events up to this message. -/
inductive Spec.AfterClose (n : Nat) (ch : UInt32) (t : List Event) : Message → Prop
  /-- a new channel with the same number of the client -/
  | confirm {x} : AfterClose n ch t (.channel (.openConfirmation x))
  /-- replies to requests -/
  | success : AfterClose n ch t (success ch)
  | failure : AfterClose n ch t (failure ch)
  /-- the output of another process -/
  | stdout {u k d} : t = u ++ [.proc (.stdout k d)] → (view u).homes k = some ch → k ≠ n →
    AfterClose n ch t (dataMsg ch d)
  /-- errors of this or another process -/
  | stderr {u k d} : t = u ++ [.proc (.stderr k d)] → (view u).homes k = some ch →
    AfterClose n ch t (dataMsg ch d)
  /-- the end of the output of another process -/
  | eof {u k} : t = u ++ [.proc (.stdout k [])] → (view u).homes k = some ch → k ≠ n →
    AfterClose n ch t (eofMsg ch)
  | close {u k} : t = u ++ [.proc (.stdout k []), .sent (encode (eofMsg ch))] →
    (view u).homes k = some ch → k ≠ n → AfterClose n ch t (closeMsg ch)
  /-- the exit of this or another process -/
  | exit {u k status} : t = u ++ [.proc (.exited k status)] → (view u).homes k = some ch →
    AfterClose n ch t (exitMsg ch status)

/-- C46, the part that holds in general: what is sent to a channel after its CLOSE is only this; of the
process whose standard output has ended with CLOSE there are only errors and the exit status. -/
theorem C46_what_partial (hrun : Client.steps K H user (Client.start a) sched s = (r, s'))
    {t1 t2 t3 : List Event} {p q : Bytes} {c : Chan.ChanOnly} {m : Message}
    (hl : s'.log = s.log ++ (t1 ++ .sent p :: (t2 ++ .sent q :: t3)))
    (hp : Spec.Legal (.channel (.close c)) p) (hq : Spec.Legal m q) (hm : Spec.isReply m = false)
    (hto : Spec.recipient m = some c.recipientChannel) :
    ∃ t0 n, t1 = t0 ++ [.proc (.stdout n []), .sent (Spec.encode (Spec.eofMsg c.recipientChannel))] ∧
      (Spec.view t0).homes n = some c.recipientChannel ∧
      Spec.AfterClose n c.recipientChannel (t1 ++ .sent p :: t2) m := by
  have hl' : s'.log = s.log ++ ((t1 ++ .sent p :: t2) ++ .sent q :: t3) := by rw [hl]; simp
  obtain ⟨t0, n, h1, h2⟩ := C44_close hrun hl hp
  refine ⟨t0, n, h1, h2, ?_⟩
  have hend : .proc (.stdout n []) ∈ t1 := by rw [h1]; simp
  have hc := cause_of hrun hm hl' hq
  cases hc with
  | confirm => exact .confirm
  | success => cases hto; exact .success
  | failure => cases hto; exact .failure
  | stdout g1 g2 g3 g4 g5 =>
    cases hto
    exact .stdout g1 g4 (by rintro rfl; exact absurd (mem_of_snoc_eq g1 _ hend) g5.2)
  | stderr g1 g2 g3 g4 g5 => cases hto; exact .stderr g1 g4
  | eof g1 g2 g3 =>
    cases hto
    exact .eof g1 g2 (by rintro rfl; exact absurd (mem_of_snoc_eq g1 _ hend) g3.2)
  | close g1 g2 g3 => cases hto; exact .close g1 g2 (close_other h1 g1 g3)
  | exit g1 g2 => cases hto; exact .exit g1 g2

/-- C46, the part that holds: if the channel has only one process, which has ended before its standard
output, and so has its standard error output, then after CLOSE the server sends no data, EOF, CLOSE or
exit status for the channel any more. Missing: the order of these ends is not in the hands of the
server. A message to the same number is then the confirmation of a new channel, or the reply to a new
request. -/
theorem C46_after_partial (hrun : Client.steps K H user (Client.start a) sched s = (r, s'))
    {t1 t2 t3 : List Event} {p q : Bytes} {c : Chan.ChanOnly} {m : Message} {n : Nat}
    (hl : s'.log = s.log ++ (t1 ++ .sent p :: (t2 ++ .sent q :: t3)))
    (hp : Spec.Legal (.channel (.close c)) p) (hq : Spec.Legal m q) (hm : Spec.isReply m = false)
    (hto : Spec.recipient m = some c.recipientChannel)
    (hone : ∀ k, (Spec.view (t1 ++ .sent p :: (t2 ++ .sent q :: t3))).homes k =
      some c.recipientChannel → k = n)
    (hexit : ∃ status, .proc (.exited n status) ∈ t1)
    (herr : .proc (.stderr n []) ∈ t1 ∨
      ∀ i o, .proc (.started n i o true) ∉ t1 ++ .sent p :: (t2 ++ .sent q :: t3)) :
    (∃ x, m = .channel (.openConfirmation x)) ∨ m = Spec.success c.recipientChannel ∨
      m = Spec.failure c.recipientChannel := by
  have hl' : s'.log = s.log ++ ((t1 ++ .sent p :: t2) ++ .sent q :: t3) := by rw [hl]; simp
  obtain ⟨t0, k, h1, h2⟩ := C44_close hrun hl hp
  -- a process of the channel is the process `n`
  have home : ∀ {u v k}, t1 ++ .sent p :: t2 = u ++ v → (Spec.view u).homes k =
      some c.recipientChannel → k = n := by
    intro u v k hu hk
    refine hone k ?_
    have := homes_mono hrun (t := u) (t' := v ++ .sent q :: t3) (t'' := []) (by
      rw [hl', hu]; simp) hk
    rw [← List.append_assoc, ← hu] at this
    simpa using this
  have hkn : k = n := home (u := t0)
    (v := [.proc (.stdout k []), .sent (Spec.encode (Spec.eofMsg c.recipientChannel))] ++ .sent p :: t2)
    (by rw [h1]; simp) h2
  subst hkn
  have hend : .proc (.stdout k []) ∈ t1 := by rw [h1]; simp
  have hc := cause_of hrun hm hl' hq
  cases hc with
  | confirm => exact .inl ⟨_, rfl⟩
  | success =>
    cases hto
    exact .inr (.inl rfl)
  | failure =>
    cases hto
    exact .inr (.inr rfl)
  | stdout g1 g2 g3 g4 g5 =>
    cases hto
    have hk := home g1 g4
    subst hk
    exact absurd (mem_of_snoc_eq g1 _ hend) g5.2
  | @stderr u k' d peer g1 g2 g3 g4 g5 =>
    cases hto
    have hk := home g1 g4
    subst hk
    rcases herr with herr | herr
    · exact absurd (mem_of_snoc_eq g1 _ herr) g5.2
    · obtain ⟨i, o, hs⟩ := g5.1
      refine absurd ?_ (herr i o)
      have : .proc (.started k' i o true) ∈ t1 ++ .sent p :: t2 := by
        rw [g1]
        exact List.mem_append_left _ hs
      have := List.mem_append_left (.sent q :: t3) this
      simpa using this
  | eof g1 g2 g3 =>
    cases hto
    have hk := home g1 g2
    subst hk
    exact absurd (mem_of_snoc_eq g1 _ hend) g3.2
  | close g1 g2 g3 =>
    cases hto
    have hk := home g1 g2
    exact absurd hk (close_other h1 g1 g3)
  | exit g1 g2 g3 =>
    cases hto
    have hk := home g1 g2
    subst hk
    obtain ⟨st, hst⟩ := hexit
    exact absurd (mem_of_snoc_eq g1 _ hst) (g3.2 _)

/-! ### the streams of packets -/

/-- C47, the part that holds: if no other event happens while a packet is only partially received, then
whatever else happens the packets received are those the client has sent, in order and unchanged; nothing
more is received, if no other packet follows these. -/
theorem C47_received_partial (hrun : Client.steps K H user (Client.start a) sched s = (r, s'))
    (hcut : ∀ n, ¬ Spec.Drops sched (.read n)) {ps : List Bytes} {rest : Bytes}
    (hs : Spec.Arrive K (Spec.keysOf a.receive) a.receive.counter.toNat ps s.inp rest)
    {t : List Event} (hl : s'.log = s.log ++ t) :
    Spec.payloads t <+: ps ∨ (ps <+: Spec.payloads t ∧ ∃ p rest',
      Spec.Arrive K (Spec.keysOf a.receive) (a.receive.counter.toNat + ps.length) [p] rest rest') := by
  obtain ⟨u, h1, h2⟩ := steps_along (X := Ctx.of K H user a sched s) hcut hs (as := sched) .nil
    (Good.start K H user a sched s) (by
      intro x hx
      cases x with
      | message => trivial
      | event cut e =>
        refine ⟨.inr ⟨e, hx⟩, ?_⟩
        intro h
        cases e with
        | stdout i r =>
          cases r with
          | none => exact ⟨cut, i, .inl hx⟩
          | some => cases h
        | stderr i r =>
          cases r with
          | none => exact ⟨cut, i, .inr (.inl hx)⟩
          | some => cases h
        | exit i r =>
          cases r with
          | none => exact ⟨cut, i, .inr (.inr hx)⟩
          | some => cases h) (.inl (List.nil_prefix))
  have hr : (Client.steps K H user (Client.start a) sched s).2.log = s.log ++ u := h1
  rw [hrun] at hr
  rw [hl] at hr
  rw [List.append_cancel_left hr]
  exact h2

/-- C47, the part that holds: none is lost. While the session goes on, the packets that have not been
received yet are still to come; and the session does not end for lack of a packet before all have been
received (unless a packet counter is exhausted). -/
theorem C47_complete_partial (hrun : Client.steps K H user (Client.start a) sched s = (r, s'))
    (hcut : ∀ n, ¬ Spec.Drops sched (.read n)) {ps : List Bytes} {rest : Bytes}
    (hs : Spec.Arrive K (Spec.keysOf a.receive) a.receive.counter.toNat ps s.inp rest)
    {t : List Event} (hl : s'.log = s.log ++ t) :
    (∀ st, r = ok (.inl st) → (Spec.payloads t).length ≤ ps.length →
      Spec.Arrive K (Spec.keysOf st.receive) st.receive.counter.toNat
        (ps.drop (Spec.payloads t).length) s'.inp rest) ∧
    (∀ e, r = err (.recv e) → ps.length ≤ (Spec.payloads t).length ∨ Spec.Exhausted a t) := by
  cases session_whole hrun hl with
  | on h1 h2 h3 =>
    refine ⟨fun st hr hle => ?_, fun e hr => (by rw [hr] at h1; cases h1)⟩
    rw [hr] at h1
    cases h1
    have := (h3.link.inp hcut ps rest hs hle).2
    rw [h3.link.receiveKeys, h3.link.receiveCounter]
    exact this
  | ended h1 h2 =>
    rename_i u b
    refine ⟨fun st hr => (by subst hr; cases h2), fun e hr => ?_⟩
    subst hr
    cases h2 with
    | lost h =>
      rw [List.append_nil]
      by_cases hc : a.receive.counter.toNat + (Spec.payloads u).length + 1 < 2 ^ 64
      · exact .inl (h hcut ps rest hs hc)
      · exact .inr (.inr (Nat.le_of_not_lt hc))

/-- C60: while the session goes on and no reply was interrupted, what was written are the packets with the
messages sent, encrypted with consecutive numbers. -/
theorem C60_written {st : Client.St}
    (hrun : Client.steps K H user (Client.start a) sched s = (ok (.inl st), s'))
    (hcut : ∀ n, ¬ Spec.Drops sched (.write n)) {t : List Event} (hl : s'.log = s.log ++ t) :
    ∃ w, s'.out = s.out ++ w ∧
      Spec.Stream K (Spec.keysOf a.send) a.send.counter.toNat (Spec.sentPayloads t) w [] ∧
      Spec.keysOf st.send = Spec.keysOf a.send ∧
      st.send.counter.toNat = a.send.counter.toNat + (Spec.sentPayloads t).length := by
  cases session_whole hrun hl with
  | on h1 h2 h3 =>
    cases h1
    obtain ⟨w, h4, h5⟩ := h3.link.out hcut
    exact ⟨w, h4, h5, h3.link.sendKeys, h3.link.sendCounter⟩
  | ended h1 h2 => nomatch h2

/-! ### flow control -/

/-- C48, the part that holds: a data message has at least one and at most 256 bytes, and is sent only for
that many bytes of output. Missing: the window and the maximum packet size of the client are not
considered at all. -/
theorem C48_data_partial (hrun : Client.steps K H user (Client.start a) sched s = (r, s'))
    {t1 t2 : List Event} {p : Bytes} {d : Chan.Data}
    (hl : s'.log = s.log ++ (t1 ++ .sent p :: t2)) (hp : Spec.Legal (.channel (.data d)) p) :
    d.data ≠ [] ∧ d.data.length ≤ 256 ∧ ∃ t0 n, (Spec.view t0).homes n = some d.recipientChannel ∧
      (t1 = t0 ++ [.proc (.stdout n d.data)] ∨ t1 = t0 ++ [.proc (.stderr n d.data)]) := by
  have h := cause_of hrun rfl hl hp
  cases h with
  | stdout h1 h2 h3 h4 => exact ⟨h2, h3, _, _, h4, .inl h1⟩
  | stderr h1 h2 h3 h4 => exact ⟨h2, h3, _, _, h4, .inr h1⟩

/-! ### the end of a session -/

/-- C49: a DISCONNECT ends the session; nothing happens after it. -/
theorem C49_disconnect (hrun : Client.steps K H user (Client.start a) sched s = (r, s'))
    {t1 t2 : List Event} {q : Bytes} {d : Msg.Disconnect}
    (hl : s'.log = s.log ++ (t1 ++ .received q :: t2)) (hq : Spec.Legal (.disconnect d) q) :
    t2 = [] ∧ r = ok (.inr ()) := by
  rcases (session_whole hrun hl).react rfl hq with ⟨_, h⟩
  cases h with
  | done h1 => cases h1
  | disconnect h => exact ⟨rfl, h⟩
  | write _ _ h => cases h
  | fatal _ h =>
    cases h with
    | unsupported h => cases h
  | overflow _ _ h => cases h

/-- C49: a session ends regularly only with a DISCONNECT from the client. -/
theorem C49_ended (hrun : Client.steps K H user (Client.start a) sched s = (ok (.inr ()), s')) :
    ∃ t q d, s'.log = s.log ++ (t ++ [.received q]) ∧ Spec.Legal (.disconnect d) q := by
  obtain ⟨t, hl, h⟩ := session_log hrun
  cases h with
  | on h1 => cases h1
  | ended h1 h2 =>
    cases h2 with
    | disconnect h3 => exact ⟨_, _, _, hl, h3⟩

/-- C49: an IGNORE changes only what receiving any packet changes: the number of the next packet and the
buffer. Nothing is sent, nothing is drawn from the random source and no handler is called. -/
theorem C49_ignore (st : Client.St) (s : IoSt) (payload padding raw rest : Bytes) (i : Msg.Ignore)
    (hq : Spec.Legal (.ignore i) payload) (h : Spec.PacketOf .b8 false payload padding raw)
    (hfit : raw.length + 16 ≤ st.buf.length) (hc : st.receive.counter.toNat + 1 < 2 ^ 64)
    (hi : s.inp = Spec.sealed K (Spec.keysOf st.receive) st.receive.counter.toNat raw ++ rest) :
    ∃ c' buf', Spec.keysOf c' = Spec.keysOf st.receive ∧
      c'.counter.toNat = st.receive.counter.toNat + 1 ∧ buf'.length = st.buf.length ∧
      Client.step K H user st .message s = (ok (.inl { st with receive := c', buf := buf' }),
        { s with inp := rest, log := s.log ++ [.received payload] }) := by
  obtain ⟨c', buf', h1, h2, h3, h4⟩ := C22_recv_one K st.receive st.buf payload padding raw rest s h
    hfit hc hi
  refine ⟨c', buf', h1, h2, h3, ?_⟩
  show Client.message K H user .none st s = _
  simp only [Client.message]
  rw [M.bind_ok (by rw [M.mapErr_run, h4]; rfl)]
  simp only
  rw [(Message.parse_iff rfl).mpr hq]
  rfl

/-- C49: and nothing the session knows depends on an IGNORE. -/
theorem C49_view {q : Bytes} {i : Msg.Ignore} (hq : Spec.Legal (.ignore i) q) (t u : List Event) :
    Spec.view (t ++ .received q :: u) = Spec.view (t ++ u) := by
  have : Spec.View.next (Spec.view t) (.received q) = Spec.view t := by
    simp only [Spec.View.next, hq.msgOf rfl, Option.elim, Spec.View.receive]
  rw [view_append, view_append, List.foldl_cons, this]

theorem Reaction.legal {l0 t : List Event} {q : Bytes} {b : List Event}
    (h : Spec.Reaction H user l0 t q b) : ∃ m, Spec.isReply m = false ∧ Spec.Legal m q := by
  cases h with
  | opened h => exact ⟨_, rfl, h⟩
  | run h => exact ⟨_, rfl, h⟩
  | decline h => exact ⟨_, rfl, h⟩
  | data h => exact ⟨_, rfl, h⟩
  | eof h => exact ⟨_, rfl, h⟩
  | close h => exact ⟨_, rfl, h⟩
  | ignore h => exact ⟨_, rfl, h⟩

theorem Whole.legal {X : Ctx} {t1 t2 : List Event} {q : Bytes}
    (h : Whole X r s' (t1 ++ .received q :: t2)) :
    (∃ m, Spec.isReply m = false ∧ Spec.Legal m q) ∨
    (Spec.FatalPacket (Spec.view t1) q ∧ t2 = [] ∧ r = R.panic) := by
  obtain ⟨t0, b1, h1, h2, h3⟩ := h.split
  have hb : b1 = [] := by
    have hloc : Local X.H X.user X.A X.l0 t0 b1 (.received q) := by
      rcases h3 with ⟨b2, t3, _, h3, _⟩ | h3
      · exact Block.local h3
      · exact Ending.local h3
    cases hloc
    rfl
  subst hb
  rw [List.append_nil] at h1
  subst h1
  rcases h3 with ⟨b2, t3, rfl, h4, h5⟩ | h3
  · rcases Block.packet_inv h4 with h | ⟨_, _, _, _, g1, g2, g3, g4, g5, rfl⟩ |
      ⟨_, _, g1, g2, g3, g4, rfl⟩
    · exact .inl (Reaction.legal h)
    · exact .inl ⟨_, rfl, g2⟩
    · exact .inl ⟨_, rfl, g2⟩
  · generalize hb : [] ++ Event.received q :: t2 = b at h3
    rw [List.nil_append] at hb
    cases h3 with
    | disconnect hd =>
      cases hb
      exact .inl ⟨_, rfl, hd⟩
    | lost => cases hb
    | write hw hbl =>
      rename_i b p b'
      cases b with
      | nil => cases hb
      | cons x b =>
        rw [List.cons_append] at hb
        obtain ⟨rfl, rfl⟩ := List.cons.inj hb
        exact .inl (Reaction.legal (Block.sent_packet hbl))
    | fatal hf =>
      cases hb
      exact .inr ⟨hf, rfl, rfl⟩
    | spawnFails g1 g2 g3 g4 g5 =>
      cases hb
      exact .inl ⟨_, rfl, g1⟩
    | writeFails g1 g2 g3 =>
      cases hb
      exact .inl ⟨_, rfl, g1⟩
    | readFails => cases hb
    | overflow => cases hb
    | sendOverflow ho hbl =>
      subst hb
      exact .inl (Reaction.legal (Block.sent_packet hbl))

theorem React.not_fatal {l0 t : List Event} {q : Bytes} {m : Message} {b : List Event}
    (h : React H user l0 t q m b) (hf : FatalMsg (Spec.view t) m) : False := by
  cases h with
  | opened h =>
    cases hf with
    | unsupported h' => cases h'
    | full h' => exact h' _ h.1
  | run h1 h2 h3 h4 =>
    cases hf with
    | unsupported h' => cases h'
    | request h' => rw [h1] at h'; cases h'
    | badRequest h' => exact h' _ h2
    | otherRequest g1 g2 g3 => rw [Asks.unique g1 h2, h3] at g2; cases g2
  | decline h1 h2 h3 =>
    cases hf with
    | unsupported h' => cases h'
    | request h' => rw [h1] at h'; cases h'
    | badRequest h' => exact h' _ h2
    | otherRequest g1 g2 g3 => rw [Asks.unique g1 h2, h3] at g3; cases g3
  | data h1 h2 h3 =>
    cases hf with
    | unsupported h' => cases h'
    | data h' => exact h1 h'
    | noStdin h' => rw [h2] at h'; cases h'
  | eof h =>
    cases hf with
    | unsupported h' => cases h'
    | eof h' => exact h h'
  | close =>
    cases hf with
    | unsupported h' => cases h'
  | ignore =>
    cases hf with
    | unsupported h' => cases h'

/-- C50 is false: on each of these packets the server panics, in every state and every session. -/
theorem C50_fatal (hrun : Client.steps K H user (Client.start a) sched s = (r, s'))
    {t1 t2 : List Event} {q : Bytes} (hl : s'.log = s.log ++ (t1 ++ .received q :: t2))
    (hq : Spec.FatalPacket (Spec.view t1) q) : t2 = [] ∧ r = R.panic := by
  have hw := session_whole hrun hl
  rcases hw.legal with ⟨m, hm, hp⟩ | ⟨_, h1, h2⟩
  · have hf := FatalPacket.to hq hm hp
    rcases hw.react hm hp with ⟨_, h⟩
    cases h with
    | done h1 => exact (React.not_fatal h1 hf).elim
    | lostSpawn h1 h2 h3 h4 =>
      cases hf with
      | unsupported h' => cases h'
      | request h' => rw [h2] at h'; cases h'
      | badRequest h' => exact absurd h3 (h' _)
      | otherRequest g1 g2 g3 => rw [Asks.unique g1 h3, h4] at g2; cases g2
    | lostData h1 h2 h3 =>
      cases hf with
      | unsupported h' => cases h'
      | data h' => exact absurd h' h2
      | noStdin h' => rw [h3] at h'; cases h'
    | disconnect =>
      cases hf with
      | unsupported h' => cases h'
    | write _ _ h => exact (React.not_fatal h hf).elim
    | fatal h => exact ⟨rfl, h⟩
    | spawnFails h h2 h3 h4 h5 =>
      cases hf with
      | unsupported h' => cases h'
      | request h' => rw [h2] at h'; cases h'
      | badRequest h' => exact absurd h3 (h' _)
      | otherRequest g1 g2 g3 => rw [Asks.unique g1 h3, h4] at g2; cases g2
    | writeFails h => exact ⟨rfl, h⟩
    | overflow _ _ h => exact (React.not_fatal h hf).elim
  · exact ⟨h1, h2⟩

/-- C50, the part that holds: the server panics only on one of these packets, if a handler fails or
panics, if the output of a process cannot be read, if a process cannot be waited for, or if a packet counter is
exhausted. -/
theorem C50_panic_partial (hrun : Client.steps K H user (Client.start a) sched s = (R.panic, s'))
    {t : List Event} (hl : s'.log = s.log ++ t) :
    (∃ t1 q, t = t1 ++ [.received q] ∧ Spec.FatalPacket (Spec.view t1) q) ∨
    (∃ t1 q ty n, t = t1 ++ [.received q, .proc (.spawn ty n)] ∧
      ∀ io, H.spawn (s.log ++ t1 ++ [.received q]) user ty ≠ ok io) ∨
    (∃ t1 q d n, t = t1 ++ [.received q] ∧ Spec.Legal (.channel (.data d)) q ∧
      (Spec.view t1).stdins d.recipientChannel = some n ∧
      ∀ k, H.write (s.log ++ t) n d.data ≠ ok k) ∨
    Spec.ReadFails sched ∨
    Spec.Exhausted a t := by
  cases session_whole hrun hl with
  | on h1 => cases h1
  | ended h1 h2 =>
    rename_i t b
    cases h2 with
    | fatal h => exact .inl ⟨_, _, rfl, h⟩
    | spawnFails g1 g2 g3 g4 g5 => exact .inr (.inl ⟨_, _, _, _, rfl, g5⟩)
    | writeFails g1 g2 g3 =>
      exact .inr (.inr (.inl ⟨_, _, _, _, rfl, g1, g2, by rw [← List.append_assoc]; exact g3⟩))
    | readFails h => exact .inr (.inr (.inr (.inl h)))
    | overflow h => rw [List.append_nil]; exact .inr (.inr (.inr (.inr h)))
    | sendOverflow h hb =>
      refine .inr (.inr (.inr (.inr ?_)))
      rcases h with h | h
      · refine .inl (Nat.le_trans h ?_)
        rw [sentPayloads_append, List.length_append]
        show a.send.counter.toNat + _ + 2 ≤ _
        omega
      · refine .inr (Nat.le_trans h ?_)
        rw [payloads_append, List.length_append]
        show a.receive.counter.toNat + _ + 1 ≤ _
        omega

end

end Nora
