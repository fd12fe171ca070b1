import Verif.Props.Whole
import Verif.Props.ConnWitness
/-
A concrete server with a client that authenticates and runs a command: it meets the premises of C64-C68.
-/
namespace Nora
open R Server

/-- a client that authenticates with a password, opens a channel and runs a command -/
def wholePayloads : List Bytes :=
  [Spec.encode (.serviceRequest ⟨b! "ssh-userauth"⟩),
   Spec.encode (Spec.request (b! "u") (b! "ssh-connection") .none),
   Spec.encode (Spec.request (b! "u") (b! "ssh-connection") (.password (b! "pw"))), demoP0, demoP1]

def wholeConfig : Config :=
  { K := .flat, H := someHandlers, C := demoHandlers ⟨true, true, true⟩ List.length,
    ident := b! "SSH-2.0-nora" }

/-- what happens: exactly these packets and events, in this order -/
def wholeLog : List Event :=
  [.received (Spec.encode (.serviceRequest ⟨b! "ssh-userauth"⟩)), .sent Spec.acceptReply,
   .received (Spec.encode (Spec.request (b! "u") (b! "ssh-connection") .none)),
     .auth (b! "u") (b! "ssh-connection") .none none, .sent Spec.failureReply,
   .received (Spec.encode (Spec.request (b! "u") (b! "ssh-connection") (.password (b! "pw")))),
     .auth (b! "u") (b! "ssh-connection") (.password (b! "pw")) (some 1000), .sent Spec.successReply,
   .received demoP0, .sent (Spec.encode (Spec.confirm 0 demoOpen)),
   .received demoP1, .proc (.spawn (.exec (b! "ls")) 0), .proc (.started 0 true true true),
     .sent (Spec.encode (Spec.success 5))]

/-- the session of the demonstration, after any authentication -/
theorem demo_session {a : Authenticated} {s : IoSt} {rest : Bytes} (hw : s.wcap = none)
    (h1 : a.send.counter.toNat < 2 ^ 32) (h2 : a.receive.counter.toNat < 2 ^ 32)
    (hs : Spec.Arrive .flat (Spec.keysOf a.receive) a.receive.counter.toNat [demoP0, demoP1] s.inp rest) :
    ∃ st s1, Client.steps .flat wholeConfig.C a.user (Client.start a) [.message, .message] s =
        (ok (.inl st), s1) ∧ s1.log = s.log ++ demoLog ⟨true, true, true⟩ := by
  have hc : ∀ t : List Event, (Spec.sentPayloads t).length ≤ 100 → (Spec.payloads t).length ≤ 100 →
      Spec.Fresh a t := by
    intro t g1 g2
    refine ⟨?_, ?_⟩ <;> omega
  obtain ⟨st, s1, h1, h2, _⟩ := exec_open (K := .flat) (H := wholeConfig.C) (user := a.user)
    (a := a) (sched := []) (s := s) (s' := s) (st := Client.start a)
    (t := []) (q := demoP0) (o := demoOpen) (id := 0) rfl (List.append_nil _).symm
    (fun _ _ h => by cases h) hw (hc _ (by decide) (by decide)) hs rfl (legal_encode demoOpen_wf) rfl
  have h2 : s1.log = s.log ++ demoLog0 := h2
  rcases exec_message (q := demoP1) h1 h2 (fun cut e h => by simp at h) hw
    (hc _ (by decide) (by decide)) hs rfl
    (by
      intro hf
      have := FatalPacket.to hf rfl (legal_encode demoExec_wf)
      rw [demo_view0] at this
      cases this with
      | unsupported h => cases h
      | request h => cases h
      | badRequest h => exact h _ demoExec_asks
      | otherRequest h1 h2 => rw [Asks.unique h1 demoExec_asks] at h2; cases h2)
    (fun ty => ⟨_, rfl⟩) (fun n d => ⟨_, rfl⟩) with
    ⟨st2, s2, b, h3, h4, h5⟩ | ⟨d, _, h3, _⟩
  · refine ⟨st2, s2, h3, ?_⟩
    rw [h4, demoLog]
    have := Reaction.to h5 rfl (legal_encode demoExec_wf)
    generalize hm : Message.channel (.request demoExec) = m at this
    cases this with
    | run g1 g2 g3 g4 =>
      cases hm
      rw [Asks.unique g2 demoExec_asks] at g3
      cases g3
      cases g4
      rw [demo_view0] at g1 ⊢
      cases g1
      rfl
    | decline g1 g2 g3 =>
      cases hm
      rw [Asks.unique g2 demoExec_asks] at g3
      cases g3
    | _ => cases hm
  · exact absurd (h3.unique rfl rfl (legal_encode demoExec_wf)) (by simp)

/-- a session that goes on has not panicked before -/
theorem whole_alone {K : Crypto} {H : ConnHandlers} {user : Nat} {st0 st : Client.St} {s s' : IoSt}
    (h : Client.steps K H user st0 [.message, .message] s = (ok (.inl st), s')) :
    ∀ k, k ≤ 1 → ∀ st1 io, Client.steps K H user st0 (List.replicate k .message) s =
      (ok (.inl st1), io) → (Client.step K H user st1 .message io).1 ≠ R.panic := by
  intro k hk st1 io h1 hp
  have h2 := steps_snoc (x := .message) h1
  rcases hx : Client.step K H user st1 .message io with ⟨r, io1⟩
  rw [hx] at hp h2
  cases hp
  match k, hk with
  | 0, _ =>
    change Client.steps K H user st0 [.message] s = _ at h2
    rw [steps_one] at h2
    rw [Client.steps, M.bind_panic h2] at h
    cases h
  | 1, _ =>
    change Client.steps K H user st0 [.message, .message] s = _ at h2
    rw [h2] at h
    cases h

/-- A server with this client runs on, and at some point the client has got as far as this. So the
premises of C64-C68 hold for it, with a process that was started. -/
theorem whole_run : ∃ ops m st io, (run wholeConfig ops).running = true ∧
    Spec.own 0 ops = some (clientState wholePayloads [9], List.replicate m .message) ∧
    (run wholeConfig ops).conns[0]? = some ⟨.session 1000 st, io⟩ ∧ io.log = wholeLog := by
  obtain ⟨c, s1, h1, h2, h3, h4⟩ := flat_session wholePayloads [9]
  have hs := conversation_stream [9] wholePayloads 3 (by decide)
  rw [← h2, ← h4] at hs
  obtain ⟨a, s2, g1, g2, g3, g4, -, g6, g7, g8⟩ := C68_served wholeConfig (clientState wholePayloads [9])
    s1 c _ [9] _ _ 1000 [demoP0, demoP1] (by decide) h1 rfl (by decide +kernel)
    (legal_encode (show Spec.Fits _ by decide))
    (.cons (.refused (.none (legal_encode ⟨by decide, by decide, trivial⟩)) (by rfl)) .nil)
    (.mk (.password (legal_encode ⟨by decide, by decide, show Spec.Fits _ by decide⟩)) (by rfl)) hs
  obtain ⟨st, io, k1, k2⟩ := demo_session (a := a) (s := s2) g4 (by rw [g7]; decide)
    (by rw [g6]; decide) g8
  obtain ⟨n, -, k3⟩ := C68_session wholeConfig (by decide) _ _ _ g1
  have k4 := whole_alone k1
  refine ⟨.accept (clientState wholePayloads [9]) :: List.replicate (n + 2) (.poll 0 .message), n + 2, st, io, ?_⟩
  rw [← and_assoc, ← and_assoc]
  refine ⟨?_, by rw [k2, g3]; rfl⟩
  generalize clientState wholePayloads [9] = s at k3 ⊢
  have hfold : ∀ m, (Op.accept s :: List.replicate m (.poll 0 .message)).foldl (Spec.ownStep 0) (0, none) =
      (1, some (s, List.replicate m .message)) := by
    intro m
    induction m with
    | zero => rfl
    | succ m ih =>
      rw [List.replicate_succ', ← List.cons_append, List.foldl_append, ih, List.replicate_succ']
      rfl
  have hrun : ∀ m, m ≤ n + 2 →
      (run wholeConfig (.accept s :: List.replicate m (.poll 0 .message))).running = true := by
    intro m
    induction m with
    | zero => exact fun _ => rfl
    | succ m ih =>
      intro hm
      have hr := ih (by omega)
      rw [List.replicate_succ', ← List.cons_append]
      cases h : (run wholeConfig ((.accept s :: List.replicate m (.poll 0 .message)) ++
        [.poll 0 .message])).running with
      | true => rfl
      | false =>
        obtain ⟨pre, sched, st', io', e1, e2, e3, e4⟩ :=
          ((k3 _ 0 hr).2 _ .message (congrArg Prod.snd (hfold m))).mp h
        have e5 := congrArg List.length e1
        rw [List.length_replicate, List.length_append] at e5
        have e6 : sched = List.replicate sched.length .message := by
          refine List.eq_replicate_of_mem (fun b hb => ?_)
          have : b ∈ List.replicate m Client.Step.message := by
            rw [e1]
            exact List.mem_append.mpr (.inr hb)
          exact List.eq_of_mem_replicate this
        exact absurd e4 (k4 sched.length (by omega) _ _ (by rw [← e6]; exact e3))
  have hlast := (k3 _ 0 (hrun (n + 2) (Nat.le_refl _))).1 (List.replicate n .message) [.message, .message]
    (by
      rw [Spec.own, hfold]
      exact congrArg (fun l => some (s, l)) List.replicate_append_replicate.symm) (by simp) _ _ k1
  rw [g2] at hlast
  exact ⟨⟨hrun (n + 2) (Nat.le_refl _), congrArg Prod.snd (hfold (n + 2))⟩, hlast⟩

-- its process was started for the user that was authenticated, after a request of the client
example : ∃ ops c, (run wholeConfig ops).conns[0]? = some c ∧ .proc (.started 0 true true true) ∈ c.io.log := by
  obtain ⟨ops, _, st, io, -, -, h2, h3⟩ := whole_run
  exact ⟨ops, _, h2, by rw [h3]; simp [wholeLog]⟩

-- what it has got are the packets of these replies
example : Spec.sentPayloads wholeLog = [Spec.acceptReply, Spec.failureReply, Spec.successReply,
    Spec.encode (Spec.confirm 0 demoOpen), Spec.encode (Spec.success 5)] := rfl

-- and these are all packets that it has sent after the handshake
example : Spec.payloads wholeLog = wholePayloads := rfl

end Nora
