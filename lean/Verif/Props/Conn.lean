import Verif.Lemmas.ConnTrace
/-
C40-C43: the session of an authenticated client. All theorems are about a run of `Client.steps` from the
state after authentication (`Client.start`), for every schedule, all handlers and every input. The log
of the run says what happened; `t1` is the part of it before an event.
-/
namespace Nora
open R

section
variable {K : Crypto} {H : ConnHandlers} {user : Nat} {a : Authenticated} {sched : List Client.Step}
  {s s' : IoSt} {r : R Client.Stop (Client.St ⊕ Unit)}

theorem wf_confirm (id : UInt32) (o : Chan.Open) : Spec.WF (Spec.confirm id o) := trivial

theorem wf_dataMsg {peer : UInt32} {d : Bytes} (h : d.length ≤ 256) :
    Spec.WF (Spec.dataMsg peer d) := show Spec.Fits _ by simp only [Spec.Fits]; omega

theorem wf_exitMsg (peer status : UInt32) : Spec.WF (Spec.exitMsg peer status) := by
  show Spec.Fits (b! "exit-status")
  decide

theorem Spec.Cause.good {t1 : List Event} {m : Message} (h : Spec.Cause t1 m) :
    Spec.isReply m = false ∧ Spec.WF m := by
  cases h with
  | confirm => exact ⟨rfl, wf_confirm _ _⟩
  | success => exact ⟨rfl, trivial⟩
  | failure => exact ⟨rfl, trivial⟩
  | stdout _ _ h _ => exact ⟨rfl, wf_dataMsg h⟩
  | stderr _ _ h _ => exact ⟨rfl, wf_dataMsg h⟩
  | eof => exact ⟨rfl, trivial⟩
  | close => exact ⟨rfl, trivial⟩
  | exit => exact ⟨rfl, wf_exitMsg _ _⟩

/-- C41: every message sent has one of the causes that are listed in `Spec.Cause`, and carries the
peer's number of the channel in question. -/
theorem C41_cause (hrun : Client.steps K H user (Client.start a) sched s = (r, s'))
    {t1 t2 : List Event} {p : Bytes} (hl : s'.log = s.log ++ (t1 ++ .sent p :: t2)) :
    ∃ m, p = Spec.encode m ∧ Spec.Legal m p ∧ Spec.Cause t1 m := by
  have key : ∃ m, p = Spec.encode m ∧ Spec.Cause t1 m := by
    obtain ⟨t0, b, h1, _, h⟩ := (session_whole hrun hl).local
    generalize he : Event.sent p = e at h
    cases h with
    | confirm g1 g2 =>
      rw [Event.sent.inj he]
      exact ⟨_, rfl, .confirm h1 g1 g2⟩
    | success g1 g2 g3 g4 g5 =>
      rw [Event.sent.inj he]
      exact ⟨_, rfl, .success h1 rfl g1 g2 g4 g5 g3⟩
    | failure g1 g2 g3 g4 g5 =>
      rw [Event.sent.inj he]
      exact ⟨_, rfl, .failure h1 g1 g2 g4 g5 g3⟩
    | stdoutData g1 g2 g3 g4 =>
      rw [Event.sent.inj he]
      exact ⟨_, rfl, .stdout h1 g3 g4 g2 g1⟩
    | stdoutEof g1 g2 =>
      rw [Event.sent.inj he]
      exact ⟨_, rfl, .eof h1 g2 g1⟩
    | stdoutClose g1 g2 =>
      rw [Event.sent.inj he]
      exact ⟨_, rfl, .close h1 g2 g1⟩
    | stderrData g1 g2 g3 g4 =>
      rw [Event.sent.inj he]
      exact ⟨_, rfl, .stderr h1 g3 g4 g2 g1⟩
    | exitStatus g1 g2 =>
      rw [Event.sent.inj he]
      exact ⟨_, rfl, .exit h1 g2 g1⟩
    | _ => cases he
  obtain ⟨m, rfl, h⟩ := key
  exact ⟨m, rfl, ⟨h.good.2, 1, by decide, rfl⟩, h⟩

/-- the cause of a message that was sent -/
theorem cause_of (hrun : Client.steps K H user (Client.start a) sched s = (r, s'))
    {t1 t2 : List Event} {p : Bytes} {m : Message} (hm : Spec.isReply m = false)
    (hl : s'.log = s.log ++ (t1 ++ .sent p :: t2)) (hp : Spec.Legal m p) : Spec.Cause t1 m := by
  obtain ⟨m', rfl, _, hc⟩ := C41_cause hrun hl
  rw [encode_inj hm hc.good.1 hc.good.2 hp]
  exact hc

/-- C40: a channel is confirmed only directly after the client has opened it: to the client's number,
with the least number that is not in use, and with the client's window and packet size. -/
theorem C40_confirmation (hrun : Client.steps K H user (Client.start a) sched s = (r, s'))
    {t1 t2 : List Event} {p : Bytes} {c : Chan.OpenConfirmation}
    (hl : s'.log = s.log ++ (t1 ++ .sent p :: t2))
    (hp : Spec.Legal (.channel (.openConfirmation c)) p) :
    ∃ t0 q o, t1 = t0 ++ [.received q] ∧ Spec.Legal (.channel (.open o)) q ∧
      c.recipientChannel = o.senderChannel ∧ c.windowSize = o.windowSize ∧
      c.maxPacketSize = o.maxPacketSize ∧ c.data = [] ∧
      Spec.LeastFree (Spec.view t0) c.senderChannel := by
  have h := cause_of hrun rfl hl hp
  cases h with
  | confirm h1 h2 h3 => exact ⟨_, _, _, h1, h2, rfl, rfl, rfl, rfl, h3⟩

/-- the counter of the packets sent or of those received is almost exhausted after the events `t` -/
def Spec.Exhausted (a : Authenticated) (t : List Event) : Prop :=
  2 ^ 64 ≤ a.send.counter.toNat + (Spec.sentPayloads t).length + 2 ∨
  2 ^ 64 ≤ a.receive.counter.toNat + (Spec.payloads t).length + 1

/-- C40: every channel the client opens is confirmed at once, unless the run ends there: all numbers are
in use, or a packet counter is exhausted. -/
theorem C40_open (hrun : Client.steps K H user (Client.start a) sched s = (r, s'))
    {t1 t2 : List Event} {q : Bytes} {o : Chan.Open}
    (hl : s'.log = s.log ++ (t1 ++ .received q :: t2)) (hq : Spec.Legal (.channel (.open o)) q) :
    (∃ id t3, t2 = .sent (Spec.encode (Spec.confirm id o)) :: t3 ∧
      Spec.LeastFree (Spec.view t1) id) ∨
    (t2 = [] ∧ r = R.panic ∧ ((∀ id, (Spec.view t1).peers id ≠ none) ∨ Spec.Exhausted a t1)) := by
  rcases (session_whole hrun hl).react rfl hq with ⟨_, h⟩
  cases h with
  | done h1 h2 =>
    cases h1 with
    | opened h => exact .inl ⟨_, _, rfl, h⟩
  | write h1 h2 h3 =>
    rename_i b p b'
    generalize hb : b ++ Event.sent p :: b' = x at h3
    cases h3 with
    | opened h =>
      simp only [mid_eq_cons, mid_ne_nil, and_false, exists_false, or_false] at hb
      obtain ⟨rfl, h4, rfl⟩ := hb
      rw [h4]
      exact .inl ⟨_, _, rfl, h⟩
  | fatal h1 h2 =>
    cases h2 with
    | unsupported h => cases h
    | full h => exact .inr ⟨rfl, h1, .inl h⟩
  | overflow h1 h2 h3 =>
    rename_i p b'
    generalize hb : t2 ++ Event.sent p :: b' = x at h3
    cases h3 with
    | opened h =>
      simp only [mid_eq_cons, mid_ne_nil, and_false, exists_false, or_false] at hb
      obtain ⟨rfl, h4, rfl⟩ := hb
      exact .inr ⟨rfl, h2, .inr h1⟩

/-- C40: the table of channels is the one an observer of the messages expects: for each open channel the
client's number, and the process that gets the data. -/
theorem C40_state {st : Client.St}
    (hrun : Client.steps K H user (Client.start a) sched s = (ok (.inl st), s'))
    {t : List Event} (hl : s'.log = s.log ++ t) (id : UInt32) :
    (st.channels.get id).map (·.peer) = (Spec.view t).peers id ∧
    (st.channels.get id).bind (·.stdin) = (Spec.view t).stdins id := by
  cases session_whole hrun hl with
  | on h1 h2 h3 =>
    cases h1
    exact ⟨(h3.agrees.peers id).symm, (h3.agrees.stdins id).symm⟩
  | ended h1 h2 => nomatch h2

/-! ### what the view says -/

theorem snoc_induction {α : Type} {P : List α → Prop} (h0 : P [])
    (h1 : ∀ l x, P l → P (l ++ [x])) (l : List α) : P l := by
  have : ∀ l : List α, P l.reverse := by
    intro l
    induction l with
    | nil => exact h0
    | cons x l ih => rw [List.reverse_cons]; exact h1 _ _ ih
  rw [← List.reverse_reverse l]
  exact this _

theorem view_snoc (t : List Event) (e : Event) :
    Spec.view (t ++ [e]) = (Spec.view t).next e := by
  rw [view_append]; rfl

/-- C41: the peer's number of an open channel is the one with which the client opened it; the server
confirmed this, and the client has not closed it since. -/
theorem C41_peer (hrun : Client.steps K H user (Client.start a) sched s = (r, s')) {id peer : UInt32} :
    ∀ {t t' : List Event}, s'.log = s.log ++ (t ++ t') → (Spec.view t).peers id = some peer →
    ∃ t0 q o t2, t = t0 ++ .received q :: .sent (Spec.encode (Spec.confirm id o)) :: t2 ∧
      Spec.Legal (.channel (.open o)) q ∧ o.senderChannel = peer ∧
      ∀ x c, .received x ∈ t2 → Spec.Legal (.channel (.close c)) x → c.recipientChannel ≠ id := by
  intro t
  induction t using snoc_induction with
  | h0 => intro t' _ h; simp [Spec.view, Spec.View.empty] at h
  | h1 t e ih =>
    intro t' hl hv
    rw [List.append_assoc] at hl
    rw [view_snoc] at hv
    -- the event changes nothing for this channel
    have keep : (Spec.view t).peers id = some peer →
        (∀ x c, e = .received x → Spec.Legal (.channel (.close c)) x → c.recipientChannel ≠ id) →
        ∃ t0 q o t2, t ++ [e] = t0 ++ .received q :: .sent (Spec.encode (Spec.confirm id o)) :: t2 ∧
          Spec.Legal (.channel (.open o)) q ∧ o.senderChannel = peer ∧
          ∀ x c, .received x ∈ t2 → Spec.Legal (.channel (.close c)) x → c.recipientChannel ≠ id := by
      intro h hc
      obtain ⟨t0, q, o, t2, h1, h2, h3, h4⟩ := ih hl h
      refine ⟨t0, q, o, t2 ++ [e], by rw [h1]; simp, h2, h3, ?_⟩
      intro x c hx
      rcases List.mem_append.mp hx with hx | hx
      · exact h4 x c hx
      · exact hc x c (List.mem_singleton.mp hx).symm
    cases e with
    | received p =>
      cases hm : Spec.msgOf p with
      | none =>
        simp only [Spec.View.next, hm, Option.elim] at hv
        refine keep hv fun x c hx hc => ?_
        cases hx
        rw [hc.msgOf rfl] at hm
        cases hm
      | some m =>
        simp only [Spec.View.next, hm, Option.elim] at hv
        by_cases hcl : ∃ c, m = .channel (.close c)
        · obtain ⟨c, rfl⟩ := hcl
          simp only [Spec.View.receive] at hv
          by_cases hid : id = c.recipientChannel
          · rw [hid, set_same] at hv; cases hv
          · rw [set_ne _ _ hid] at hv
            refine keep hv fun x c' hx hc => ?_
            cases hx
            rw [hc.msgOf rfl] at hm
            cases hm
            exact fun h => hid h.symm
        · have : (Spec.View.receive (Spec.view t) m).peers = (Spec.view t).peers := by
            unfold Spec.View.receive
            split
            · exact absurd ⟨_, rfl⟩ hcl
            all_goals rfl
          rw [this] at hv
          refine keep hv fun x c' hx hc => ?_
          cases hx
          rw [hc.msgOf rfl] at hm
          cases hm
          exact absurd ⟨_, rfl⟩ hcl
    | sent p =>
      obtain ⟨m, rfl, _, hc⟩ := C41_cause hrun hl
      rw [Spec.View.next, msgOf_encode hc.good.1 hc.good.2, Option.elim] at hv
      by_cases hco : ∃ i o, m = Spec.confirm i o ∧ i = id
      · obtain ⟨i, o, rfl, rfl⟩ := hco
        simp only [Spec.confirm, Spec.View.send, set_same, Option.some.injEq] at hv
        generalize hm : Spec.confirm i o = m at hc
        cases hc with
        | confirm g1 g2 g3 =>
          rename_i t0 q o' id'
          simp only [Spec.confirm, Message.channel.injEq, Channel.openConfirmation.injEq,
            Chan.OpenConfirmation.mk.injEq] at hm
          obtain ⟨ho, rfl, hw, hp, _⟩ := hm
          refine ⟨t0, q, o', [], ?_, g2, by rw [← ho]; exact hv, by simp⟩
          rw [g1, List.append_assoc]
          simp [Spec.confirm]
        | _ => cases hm
      · refine keep ?_ fun _ _ h => by cases h
        have hpe : (Spec.View.send (Spec.view t) m).peers id = (Spec.view t).peers id := by
          cases hc with
          | confirm =>
            simp only [Spec.confirm, Spec.View.send]
            exact set_ne _ _ fun h => hco ⟨_, _, rfl, h.symm⟩
          | _ => rfl
        rw [← hpe]; exact hv
    | probe | auth => exact keep hv fun _ _ h => by cases h
    | proc e =>
      refine keep ?_ fun _ _ h => by cases h
      cases e with
      | started n i o e =>
        simp only [Spec.View.next] at hv
        cases hc : (Spec.view t).current with
        | none => rw [hc] at hv; exact hv
        | some id' => rw [hc] at hv; exact hv
      | _ => exact hv

/-- C41: the channel of a process is the one on which the client asked for it. -/
theorem C41_home (hrun : Client.steps K H user (Client.start a) sched s = (r, s')) {n : Nat}
    {peer : UInt32} : ∀ {t t' : List Event}, s'.log = s.log ++ (t ++ t') →
    (Spec.view t).homes n = some peer →
    ∃ t0 q req ty t2, t = t0 ++ .received q :: .proc (.spawn ty n) :: t2 ∧
      Spec.Legal (.channel (.request req)) q ∧
      (Spec.view t0).peers req.recipientChannel = some peer := by
  intro t
  induction t using snoc_induction with
  | h0 => intro t' _ h; simp [Spec.view, Spec.View.empty] at h
  | h1 t e ih =>
    intro t' hl hv
    rw [List.append_assoc] at hl
    rw [view_snoc] at hv
    have keep : (Spec.view t).homes n = some peer →
        ∃ t0 q req ty t2, t ++ [e] = t0 ++ .received q :: .proc (.spawn ty n) :: t2 ∧
          Spec.Legal (.channel (.request req)) q ∧
          (Spec.view t0).peers req.recipientChannel = some peer := by
      intro h
      obtain ⟨t0, q, req, ty, t2, h1, h2, h3⟩ := ih hl h
      exact ⟨t0, q, req, ty, t2 ++ [e], by rw [h1]; simp, h2, h3⟩
    cases e with
    | received p =>
      refine keep ?_
      simp only [Spec.View.next] at hv
      cases hm : Spec.msgOf p with
      | none => rw [hm] at hv; exact hv
      | some m =>
        rw [hm, Option.elim] at hv
        unfold Spec.View.receive at hv
        split at hv <;> exact hv
    | sent p =>
      refine keep ?_
      simp only [Spec.View.next] at hv
      cases hm : Spec.msgOf p with
      | none => rw [hm] at hv; exact hv
      | some m =>
        rw [hm, Option.elim] at hv
        unfold Spec.View.send at hv
        split at hv <;> exact hv
    | probe | auth => exact keep hv
    | proc e =>
      cases e with
      | spawn ty m =>
        by_cases hn : n = m
        · subst hn
          obtain ⟨t0, b, h1, _, h⟩ := (session_whole hrun hl).local
          cases h with
          | spawn g1 g2 g3 g4 =>
            rename_i q req x peer'
            refine ⟨t0, q, req, ty, [], by rw [h1]; simp, g1, ?_⟩
            have hcur : (Spec.view t).current = some req.recipientChannel ∧
                (Spec.view t).peers = (Spec.view t0).peers := by
              rw [h1, view_snoc]
              simp only [Spec.View.next, g1.msgOf rfl, Option.elim, Spec.View.receive, and_self]
            simp only [Spec.View.next, set_same, hcur.1, hcur.2, Option.bind_some] at hv
            exact hv
        · refine keep ?_
          simp only [Spec.View.next, set_ne _ _ hn] at hv
          exact hv
      | started n i o e =>
        refine keep ?_
        simp only [Spec.View.next] at hv
        cases hc : (Spec.view t).current with
        | none => rw [hc] at hv; exact hv
        | some id' => rw [hc] at hv; exact hv
      | _ => exact keep hv

/-! ### requests -/

/-- C43: a process is started only directly after the client has asked for it, on an open channel; a
command consists of exactly the bytes that were sent. Processes are numbered in this order. -/
theorem C43_spawn (hrun : Client.steps K H user (Client.start a) sched s = (r, s'))
    {t1 t2 : List Event} {ty : SpawnType} {n : Nat}
    (hl : s'.log = s.log ++ (t1 ++ .proc (.spawn ty n) :: t2)) :
    ∃ t0 q req x peer, t1 = t0 ++ [.received q] ∧ Spec.Legal (.channel (.request req)) q ∧
      (Spec.view t0).peers req.recipientChannel = some peer ∧ Spec.Asks req x ∧
      Spec.runs x = some ty ∧ n = (Spec.view t0).procs := by
  obtain ⟨t0, b, h1, _, h⟩ := (session_whole hrun hl).local
  cases h with
  | spawn g1 g2 g3 g4 => exact ⟨_, _, _, _, _, h1, g1, g2, g3, g4, rfl⟩

/-- C43: what the handler returns; it is called for the user of the session, with the command bytes. -/
theorem C43_started (hrun : Client.steps K H user (Client.start a) sched s = (r, s'))
    {t1 t2 : List Event} {n : Nat} {i o e : Bool}
    (hl : s'.log = s.log ++ (t1 ++ .proc (.started n i o e) :: t2)) :
    ∃ t0 q req x ty, t1 = t0 ++ [.received q, .proc (.spawn ty n)] ∧
      Spec.Legal (.channel (.request req)) q ∧ Spec.Asks req x ∧ Spec.runs x = some ty ∧
      H.spawn (s.log ++ t0 ++ [.received q]) user ty = ok ⟨i, o, e⟩ := by
  obtain ⟨t0, b, h1, _, h⟩ := (session_whole hrun hl).local
  cases h with
  | started g1 g2 g3 g4 g5 => exact ⟨_, _, _, _, _, h1, g1, g3, g4, g5⟩

theorem Asks.unique {req : Chan.Request} {x y : SessionRequest} (h : Spec.Asks req x)
    (h' : Spec.Asks req y) : x = y := by
  have h1 := SessionRequest.parse_iff.mpr h
  rw [SessionRequest.parse_iff.mpr h'] at h1
  cases h1
  rfl

/-- C43: each request for a shell or a command on an open channel starts a process at once. -/
theorem C43_request (hrun : Client.steps K H user (Client.start a) sched s = (r, s'))
    {t1 t2 : List Event} {q : Bytes} {req : Chan.Request} {x : SessionRequest} {ty : SpawnType}
    (hl : s'.log = s.log ++ (t1 ++ .received q :: t2))
    (hq : Spec.Legal (.channel (.request req)) q)
    (hopen : (Spec.view t1).peers req.recipientChannel ≠ none) (hx : Spec.Asks req x)
    (hty : Spec.runs x = some ty) :
    ∃ t3, t2 = .proc (.spawn ty (Spec.view t1).procs) :: t3 := by
  rcases (session_whole hrun hl).react rfl hq with ⟨_, h⟩
  have hd : Spec.declined x = false := by cases x <;> first | rfl | cases hty
  -- a reaction begins with the call
  have start : ∀ {b}, React H user s.log t1 q (.channel (.request req)) b →
      ∃ b', b = .proc (.spawn ty (Spec.view t1).procs) :: b' := by
    intro b h
    cases h with
    | run h1 h2 h3 h4 =>
      cases Asks.unique h2 hx
      rw [h3] at hty
      cases hty
      exact ⟨_, rfl⟩
    | decline h1 h2 h3 =>
      cases Asks.unique h2 hx
      rw [h3] at hd
      cases hd
  have cut : ∀ {b p b'}, React H user s.log t1 q (.channel (.request req)) (b ++ .sent p :: b') →
      ∃ t3, b = .proc (.spawn ty (Spec.view t1).procs) :: t3 := by
    intro b p b' h
    obtain ⟨b'', h⟩ := start h
    cases b with
    | nil => cases h
    | cons y b => exact ⟨b, by rw [(List.cons.inj h).1]⟩
  cases h with
  | done h1 h2 =>
    obtain ⟨b', rfl⟩ := start h1
    exact ⟨_, rfl⟩
  | lostSpawn h1 h2 h3 h4 =>
    cases Asks.unique h3 hx
    rw [h4] at hty
    cases hty
    exact ⟨_, rfl⟩
  | write h1 h2 h3 =>
    obtain ⟨b', rfl⟩ := cut h3
    exact ⟨_, rfl⟩
  | fatal h1 h2 =>
    cases h2 with
    | unsupported h => cases h
    | request h => exact absurd h hopen
    | badRequest h => exact absurd hx (h x)
    | otherRequest h1 h2 h3 =>
      cases Asks.unique h1 hx
      rw [h2] at hty
      cases hty
  | spawnFails h1 h2 h3 h4 h5 =>
    cases Asks.unique h3 hx
    rw [h4] at hty
    cases hty
    exact ⟨_, rfl⟩
  | overflow h1 h2 h3 => exact cut h3

/-! ### replies -/

/-- no packet is received -/
def NoPacket (t : List Event) : Prop := ∀ x, Event.received x ∉ t

theorem untilPacket_append {b t : List Event} (h : NoPacket b) :
    Spec.untilPacket (b ++ t) = b ++ Spec.untilPacket t := by
  induction b with
  | nil => rfl
  | cons e b ih =>
    have hb : NoPacket b := fun x hx => h x (by simp [hx])
    cases e with
    | received x => exact absurd (by simp) (h x)
    | _ =>
      rw [List.cons_append, Spec.untilPacket, List.takeWhile_cons]
      exact congrArg (List.cons _) (ih hb)

theorem replies_append (b t : List Event) :
    Spec.replies (b ++ t) = Spec.replies b ++ Spec.replies t := List.filterMap_append

theorem untilPacket_prefix (t : List Event) :
    ∃ t', t = Spec.untilPacket t ++ t' ∧ NoPacket (Spec.untilPacket t) := by
  induction t with
  | nil => exact ⟨[], rfl, fun x h => by cases h⟩
  | cons e t ih =>
    obtain ⟨t', h1, h2⟩ := ih
    cases e with
    | received x => exact ⟨_, rfl, fun x h => by cases h⟩
    | _ =>
      refine ⟨t', congrArg (List.cons _) h1, fun x h => ?_⟩
      rcases List.mem_cons.mp h with h | h
      · cases h
      · exact h2 x h

theorem last_packet {t t' u u' : List Event} {q q' : Bytes}
    (h : t ++ .received q :: u = t' ++ .received q' :: u') (hu : NoPacket u) (hu' : NoPacket u') :
    t = t' ∧ q = q' ∧ u = u' := by
  rcases append_eq_mid h with ⟨x, h1, h2⟩ | ⟨x, h1, h2⟩
  · exact absurd (by rw [h2]; simp) (hu' q)
  · cases x with
    | nil =>
      simp only [List.nil_append, List.cons.injEq, Event.received.injEq] at h2
      exact ⟨by rw [h1, List.append_nil], h2.1, h2.2⟩
    | cons y x => exact absurd (by rw [(List.cons.inj h2).2]; simp) (hu q')

theorem started_procs {u : List Event} {ty : SpawnType} {n : Nat} {i o e : Bool} {m : Option Nat}
    (h : u = [.proc (.spawn ty n), .proc (.started n i o e)] ++ Spec.closing m) :
    ∀ e ∈ u, ∃ f, e = .proc f := by
  subst h
  cases m <;> simp [Spec.closing]

/-- a reply follows its request, with nothing but process events in between -/
theorem reply_of (hrun : Client.steps K H user (Client.start a) sched s = (r, s'))
    {t x t2 : List Event} {m : Message} (hl : s'.log = s.log ++ (t ++ x ++ t2)) (hx : NoPacket x)
    (hm : m ∈ Spec.replies x) : ∃ t0 q req u, (∀ e ∈ u, ∃ f, e = .proc f) ∧
      Spec.Legal (.channel (.request req)) q ∧ req.wantReply = true ∧
      ∃ y z, x = y ++ z ∧ t ++ y = t0 ++ .received q :: u := by
  obtain ⟨e, he, hem⟩ := List.mem_filterMap.mp hm
  obtain ⟨y, z, rfl⟩ := List.append_of_mem he
  cases e with
  | sent p =>
    have hl' : s'.log = s.log ++ ((t ++ y) ++ .sent p :: (z ++ t2)) := by rw [hl]; simp
    obtain ⟨m', rfl, _, hc⟩ := C41_cause hrun hl'
    simp only [msgOf_encode hc.good.1 hc.good.2] at hem
    cases hc with
    | success g1 g2 g3 g4 => exact ⟨_, _, _, _, started_procs g2, g3, g4, y, _, rfl, g1⟩
    | failure g1 g2 g3 => exact ⟨_, _, _, [], by simp, g2, g3, y, _, rfl, g1⟩
    | _ => cases hem
  | _ => cases hem

/-- C42: nothing is a reply before the first packet. -/
theorem C42_before (hrun : Client.steps K H user (Client.start a) sched s = (r, s'))
    {t : List Event} (hl : s'.log = s.log ++ t) : Spec.replies (Spec.untilPacket t) = [] := by
  obtain ⟨t', h1, h2⟩ := untilPacket_prefix t
  refine List.eq_nil_iff_forall_not_mem.mpr fun m hm => ?_
  obtain ⟨t0, q, req, u, _, _, _, y, z, h3, h4⟩ :=
    reply_of hrun (t := []) (x := Spec.untilPacket t) (t2 := t') (by rw [hl, List.nil_append, ← h1]) h2 hm
  refine h2 q ?_
  rw [h3]
  rw [List.nil_append] at h4
  rw [h4]
  simp

/-- C42: a packet that is not a request with `want_reply` gets no reply. -/
theorem C42_none (hrun : Client.steps K H user (Client.start a) sched s = (r, s'))
    {t1 t2 : List Event} {q : Bytes} (hl : s'.log = s.log ++ (t1 ++ .received q :: t2))
    (hq : ∀ req, Spec.Legal (.channel (.request req)) q → req.wantReply = false) :
    Spec.replies (Spec.untilPacket t2) = [] := by
  obtain ⟨t', h1, h2⟩ := untilPacket_prefix t2
  refine List.eq_nil_iff_forall_not_mem.mpr fun m hm => ?_
  obtain ⟨t0, q', req, u, hu, h3, h4, y, z, h5, h6⟩ :=
    reply_of hrun (t := t1 ++ [.received q]) (x := Spec.untilPacket t2) (t2 := t')
      (by rw [hl]; simp [← h1]) h2 hm
  rw [List.append_assoc] at h6
  obtain ⟨_, rfl, _⟩ := last_packet h6
    (fun x hx => h2 x (by rw [h5]; simp [show Event.received x ∈ y from hx]))
    (fun x hx => by obtain ⟨f, hf⟩ := hu _ hx; cases hf)
  rw [hq req h3] at h4
  cases h4

/-- C42: a request on an open channel with `want_reply` gets exactly one reply, with the peer's number
of this channel: success if a process was started, failure if the request was declined. (Unless the run
ends by a panic before it, or `receive` is dropped while the handler `spawn` runs.) -/
theorem C42_one_partial (hrun : Client.steps K H user (Client.start a) sched s = (r, s'))
    {t1 t2 : List Event} {q : Bytes} {req : Chan.Request} (hcut : ¬ Spec.Drops sched .spawn)
    (hl : s'.log = s.log ++ (t1 ++ .received q :: t2))
    (hq : Spec.Legal (.channel (.request req)) q) (hw : req.wantReply = true) :
    (∃ peer x, (Spec.view t1).peers req.recipientChannel = some peer ∧ Spec.Asks req x ∧
      ((∃ ty, Spec.runs x = some ty ∧ Spec.replies (Spec.untilPacket t2) = [Spec.success peer]) ∨
       (Spec.declined x = true ∧ Spec.replies (Spec.untilPacket t2) = [Spec.failure peer]))) ∨
    (r = R.panic ∧ NoPacket t2 ∧ Spec.replies t2 = []) := by
  -- nothing that follows is a reply
  have none_after : ∀ {b p t3}, t2 = b ++ .sent p :: t3 →
      Spec.replies (Spec.untilPacket t3) = [] ∨ ¬ NoPacket b := by
    intro b p t3 ht
    by_cases hb : NoPacket b
    · refine .inl (List.eq_nil_iff_forall_not_mem.mpr fun m hm => ?_)
      obtain ⟨t', h1, h2⟩ := untilPacket_prefix t3
      obtain ⟨t0, q', req', u, hu, h3, h4, y, z, h5, h6⟩ :=
        reply_of hrun (t := t1 ++ .received q :: (b ++ [.sent p])) (x := Spec.untilPacket t3)
          (t2 := t') (by rw [hl, ht]; simp [← h1]) h2 hm
      rw [List.append_assoc, List.cons_append] at h6
      obtain ⟨_, _, h7⟩ := last_packet h6
        (fun x hx => by
          simp only [List.append_assoc, List.mem_append, List.mem_cons, List.not_mem_nil, or_false] at hx
          rcases hx with hx | hx | hx
          · exact hb x hx
          · cases hx
          · exact h2 x (by rw [h5]; simp [hx]))
        (fun x hx => by obtain ⟨f, hf⟩ := hu _ hx; cases hf)
      obtain ⟨f, hf⟩ := hu (.sent p) (by rw [← h7]; simp)
      cases hf
    · exact .inr hb
  have close : ∀ o, NoPacket (Spec.closing o) ∧ Spec.replies (Spec.closing o) = [] := by
    intro o
    cases o with
    | none => exact ⟨fun x h => (by cases h), rfl⟩
    | some n => exact ⟨fun x h => by simp [Spec.closing] at h, rfl⟩
  -- a reaction up to its last event
  have main : ∀ {b t3}, React H user s.log t1 q (.channel (.request req)) b → t2 = b ++ t3 →
      ∃ peer x, (Spec.view t1).peers req.recipientChannel = some peer ∧ Spec.Asks req x ∧
      ((∃ ty, Spec.runs x = some ty ∧ Spec.replies (Spec.untilPacket t2) = [Spec.success peer]) ∨
       (Spec.declined x = true ∧ Spec.replies (Spec.untilPacket t2) = [Spec.failure peer])) := by
    intro b t3 h ht
    cases h with
    | run h1 h2 h3 h4 =>
      rename_i x ty peer io
      refine ⟨peer, x, h1, h2, .inl ⟨_, h3, ?_⟩⟩
      rw [hw] at ht
      obtain ⟨c1, c2⟩ := close ((Spec.view t1).stdins req.recipientChannel)
      generalize Spec.closing ((Spec.view t1).stdins req.recipientChannel) = c at ht c1 c2
      have hb : NoPacket (.proc (.spawn ty (Spec.view t1).procs) ::
          .proc (.started (Spec.view t1).procs io.stdin io.stdout io.stderr) :: c) := by
        intro x hx
        simp only [List.mem_cons, reduceCtorEq, false_or] at hx
        exact c1 x hx
      have ht' : t2 = (.proc (.spawn ty (Spec.view t1).procs) ::
          .proc (.started (Spec.view t1).procs io.stdin io.stdout io.stderr) :: c) ++
          .sent (Spec.encode (Spec.success peer)) :: t3 := by rw [ht]; simp [Spec.replyIf]
      rcases none_after ht' with h | h
      · rw [ht', untilPacket_append hb, replies_append]
        have e1 : Spec.replies (.proc (.spawn ty (Spec.view t1).procs) ::
          .proc (.started (Spec.view t1).procs io.stdin io.stdout io.stderr) :: c) = [] := c2
        have e2 : Spec.untilPacket (.sent (Spec.encode (Spec.success peer)) :: t3) =
          [.sent (Spec.encode (Spec.success peer))] ++ Spec.untilPacket t3 := rfl
        rw [e1, e2, replies_append, h]
        simp only [Spec.replies, List.filterMap_cons, List.filterMap_nil,
          msgOf_encode (m := Spec.success peer) rfl trivial]
        rfl
      · exact absurd hb h
    | decline h1 h2 h3 =>
      rename_i x peer
      refine ⟨peer, x, h1, h2, .inr ⟨h3, ?_⟩⟩
      rw [hw] at ht
      have ht' : t2 = [] ++ .sent (Spec.encode (Spec.failure peer)) :: t3 := by
        rw [ht]; simp [Spec.replyIf]
      have hb : NoPacket [] := fun x h => by cases h
      rcases none_after ht' with h | h
      · rw [ht', List.nil_append]
        have e2 : Spec.untilPacket (.sent (Spec.encode (Spec.failure peer)) :: t3) =
          [.sent (Spec.encode (Spec.failure peer))] ++ Spec.untilPacket t3 := rfl
        rw [e2, replies_append, h]
        simp only [Spec.replies, List.filterMap_cons, List.filterMap_nil,
          msgOf_encode (m := Spec.failure peer) rfl trivial]
        rfl
      · exact absurd hb h
  -- what comes before the reply
  have before : ∀ {b p b'}, React H user s.log t1 q (.channel (.request req)) (b ++ .sent p :: b') →
      b' = [] ∧ NoPacket b ∧ Spec.replies b = [] := by
    intro b p b' h
    generalize hb : b ++ Event.sent p :: b' = x at h
    cases h with
    | run h1 h2 h3 h4 =>
      obtain ⟨c1, c2⟩ := close ((Spec.view t1).stdins req.recipientChannel)
      rw [hw] at hb
      simp only [mid_eq_cons, reduceCtorEq, false_and, and_false, false_or] at hb
      obtain ⟨b, rfl, b, rfl, hb⟩ := hb
      rcases append_eq_mid hb.symm with ⟨x, g1, g2⟩ | ⟨x, g1, g2⟩
      · cases hs : (Spec.view t1).stdins req.recipientChannel with
        | none => rw [hs] at g1; simp [Spec.closing] at g1
        | some n =>
          rw [hs] at g1
          simp only [Spec.closing] at g1
          have := g1.symm
          simp [mid_eq_cons] at this
      · have := g2.symm
        simp only [Spec.replyIf, if_true, mid_eq_cons, mid_ne_nil, and_false, exists_false,
          or_false] at this
        obtain ⟨rfl, _, rfl⟩ := this
        rw [List.append_nil] at g1
        subst g1
        refine ⟨rfl, fun x hx => ?_, c2⟩
        simp only [List.mem_cons, reduceCtorEq, false_or] at hx
        exact c1 x hx
    | decline h1 h2 h3 =>
      rw [hw] at hb
      simp only [Spec.replyIf, if_true, mid_eq_cons, mid_ne_nil, and_false, exists_false,
        or_false] at hb
      obtain ⟨rfl, _, rfl⟩ := hb
      exact ⟨rfl, fun x h => (by cases h), rfl⟩
  rcases (session_whole hrun hl).react rfl hq with ⟨_, h⟩
  cases h with
  | done h1 h2 => exact .inl (main h1 rfl)
  | lostSpawn h1 => exact absurd h1 hcut
  | write h1 h2 h3 =>
    obtain ⟨rfl, _⟩ := before h3
    exact .inl (main h3 (List.append_nil _).symm)
  | fatal h1 h2 => exact .inr ⟨h1, fun x h => (by cases h), rfl⟩
  | spawnFails h1 => exact .inr ⟨h1, fun x h => (by simp at h), rfl⟩
  | overflow h1 h2 h3 => exact .inr ⟨h2, (before h3).2⟩

end

end Nora
