import Verif.Lemmas.Whole
import Verif.Props.Sshd
/-
C64-C67: whole connections, from the start on, of each client of a server.
-/
namespace Nora
open R Server

variable {cfg : Config}

/-! ### C64 no process without authentication -/

/-- What must have happened on a connection that started with `s` before the event `e` of a process; `pre`
are the events before. The client has completed the handshake, has sent a request for authentication, the
handler has returned Ok for it, and SUCCESS has been sent. It was authenticated once only. A process was
started by the handler, for the user that was authenticated, and directly after a request for it. -/
def Spec.Cleared (cfg : Config) (s : IoSt) (pre : List Event) (e : ProcEvent) : Prop :=
  ∃ cl s1 before p user service arg u after,
    Host.handleNewClient cfg.K cfg.ident s = (ok cl, s1) ∧
    pre = before ++ [.received p, .auth user service arg (some u), .sent successReply] ++ after ∧
    Attempt cl.sessionIdentifier p user service arg ∧
    cfg.H.authenticate (s.log ++ before ++ [.received p]) user service arg = ok u ∧
    (∀ user service arg u, .auth user service arg (some u) ∉ before) ∧
    (∀ user service arg r, .auth user service arg r ∉ after) ∧
    ∀ n i o r, e = .started n i o r → ∃ l q req x ty, after = l ++ [.received q, .proc (.spawn ty n)] ∧
      Legal (.channel (.request req)) q ∧ Asks req x ∧ runs x = some ty ∧
      cfg.C.spawn (s.log ++ before ++ [.received p, .auth user service arg (some u),
        .sent successReply] ++ l ++ [.received q]) u ty = ok ⟨i, o, r⟩

/-- the log of a session, with that of the authentication -/
theorem cleared {s s1 io : IoSt} {a : Authenticated} {sched : List Client.Step}
    {r : R Client.Stop (Client.St ⊕ Unit)} (hid : Spec.Fits cfg.ident)
    (ha : authenticateNewClient cfg.K cfg.H cfg.ident s = (ok a, s1))
    (hrun : Client.steps cfg.K cfg.C a.user (Client.start a) sched s1 = (r, io)) :
    ∃ t, io.log = s.log ++ t ∧ ∀ pre e post, t = pre ++ .proc e :: post → Spec.Cleared cfg s pre e := by
  obtain ⟨cl, s0, h1, before, p, user, service, arg, h2, h3, h4⟩ :=
    C34_no_bypass cfg.K cfg.H cfg.ident s s1 a hid ha
  obtain ⟨t, h5, -⟩ := session_log hrun
  replace h5 : io.log = s1.log ++ t := h5
  generalize ht1 : before ++ [.received p, .auth user service arg (some a.user),
    .sent Spec.successReply] = t1
  have h2' : s1.log = s.log ++ t1 := by rw [h2, ← ht1, List.append_assoc]
  obtain ⟨cl', s0', h1', -, hstory⟩ := history (K := cfg.K) (H := cfg.H) (ident := cfg.ident) (s := s)
    (t := t1) hid (by rw [ha]; exact h2') (by rw [← ht1]; simp)
  rw [h1] at h1'
  cases h1'
  have hno := hstory.noProc
  refine ⟨t1 ++ t, by rw [h5, h2', List.append_assoc], fun pre e post ht => ?_⟩
  -- the event is one of the session
  obtain ⟨after, rfl, h6⟩ : ∃ after, pre = t1 ++ after ∧ t = after ++ .proc e :: post := by
    rcases List.append_eq_append_iff.mp ht with ⟨x, hx, hy⟩ | ⟨x, hx, hy⟩
    · exact ⟨x, hx, hy⟩
    · cases x with
      | nil => exact ⟨[], by simpa using hx.symm, by simpa using hy.symm⟩
      | cons z x =>
        rw [List.cons_append] at hy
        cases hy
        exact absurd (by rw [hx]; simp) (hno e)
  rw [h6] at h5
  refine ⟨cl, s0, before, p, user, service, arg, a.user, after, h1, by rw [ht1], h3, h4, ?_, ?_, ?_⟩
  · intro user' service' arg' u' hm
    obtain ⟨x, y, rfl⟩ := List.append_of_mem hm
    rw [← ht1, List.append_assoc, List.cons_append] at hstory
    rcases hstory.oneAuth with h | h
    · simp at h
    · have := congrArg List.length h
      simp at this
  · intro user' service' arg' r' hm
    obtain ⟨x, y, rfl⟩ := List.append_of_mem hm
    have hl : io.log = s1.log ++ (x ++ .auth user' service' arg' r' :: (y ++ .proc e :: post)) := by
      rw [h5]; simp
    obtain ⟨_, _, _, _, h⟩ := (session_whole hrun hl).local
    cases h
  · rintro n i o r' rfl
    obtain ⟨t0, b, h7, _, h⟩ := (session_whole hrun h5).local
    cases h with
    | started g1 g2 g3 g4 g5 =>
      refine ⟨t0, _, _, _, _, h7, g1, g3, g4, ?_⟩
      rw [← h2]
      exact g5

/-- C64: whatever clients do, also if the server has stopped: if something about a process happens for a
client, then only after its authentication, and a process is started only for the user that was
authenticated. -/
theorem C64_process (cfg : Config) (hid : Spec.Fits cfg.ident) (ops : List Op) {i : Nat} {c : Conn}
    (hc : (run cfg ops).conns[i]? = some c) :
    ∃ s as t, Spec.own i ops = some (s, as) ∧ c.io.log = s.log ++ t ∧
      ∀ pre e post, t = pre ++ .proc e :: post → Spec.Cleared cfg s pre e := by
  obtain ⟨s, as, more, h1, hcc, -⟩ := conn_of_run hc
  have hlog := log_inv hid s as
  have hal := (alone_inv hid s as).1
  rw [← hcc] at hlog hal
  clear hcc
  refine ⟨s, as ++ more, ?_⟩
  have noProc : ∀ {t}, NoProc t → ∀ pre e post, t = pre ++ .proc e :: post →
      Spec.Cleared cfg s pre e := by
    rintro t ht pre e post rfl
    exact absurd (by simp) (ht e)
  cases hal with
  | busy g1 g2 =>
    rename_i phase io
    cases phase with
    | new => exact ⟨[], h1, by rw [List.append_nil]; exact hlog, by simp⟩
    | service cl => exact ⟨[], h1, by rw [List.append_nil]; exact hlog, by simp⟩
    | auth sid st =>
      obtain ⟨t, h2, h3⟩ := hlog
      exact ⟨t, h1, h2, noProc h3⟩
    | session user st => exact absurd rfl (g1 user st)
    | ended => exact absurd rfl g2
  | refused g1 g2 =>
    rename_i io r
    obtain ⟨t, h2⟩ : ∃ t, io.log = s.log ++ t := by
      by_cases hh : ∃ cl s1, Host.handleNewClient cfg.K cfg.ident s = (ok cl, s1)
      · obtain ⟨cl, s1, hh⟩ := hh
        obtain ⟨t, h2, -⟩ := authenticate_session cfg.H hid hh
        rw [g1] at h2
        exact ⟨t, h2⟩
      · have := (no_handshake cfg.K cfg.H cfg.ident s (fun cl s1 e => hh ⟨cl, s1, e⟩)).1
        rw [g1] at this
        exact ⟨[], by simpa using this⟩
    refine ⟨t, h1, h2, noProc ?_⟩
    by_cases hne : t = []
    · subst hne; intro e; simp
    · obtain ⟨_, _, _, _, hs⟩ := history (K := cfg.K) (H := cfg.H) (ident := cfg.ident) (s := s) hid
        (by rw [g1]; exact h2) hne
      exact hs.noProc
  | session g1 g2 =>
    obtain ⟨t, h2, h3⟩ := cleared hid g1 g2
    exact ⟨t, h1, h2, h3⟩
  | ended g1 g2 g3 =>
    obtain ⟨t, h2, h3⟩ := cleared hid g1 g2
    exact ⟨t, h1, h2, h3⟩

/-- C64 for the example server: there is a valid ed25519 signature of the data of RFC 4252 for this
connection, and each process that was started runs the words of the command that the client has just sent,
or the shell. -/
theorem C64_sshd (K : Crypto) (E : Ed25519) (number : Bytes → Nat) (S : Sshd.Sys) (ident : Bytes)
    (hid : Spec.Fits ident) (ops : List Op) {i : Nat} {c : Conn}
    (hc : (run ⟨K, Sshd.handlers E number, Sshd.connHandlers S, ident⟩ ops).conns[i]? = some c) :
    ∃ s as t, Spec.own i ops = some (s, as) ∧ c.io.log = s.log ++ t ∧
      ∀ pre e post, t = pre ++ .proc e :: post →
        ∃ cl s1 p user service key signature, Host.handleNewClient K ident s = (ok cl, s1) ∧
          .received p ∈ pre ∧
          Spec.Legal (Spec.request user service (.publicKeySigned (b! "ssh-ed25519")
            (Spec.tagged (b! "ssh-ed25519") key) (Spec.tagged (b! "ssh-ed25519") signature))) p ∧
          Spec.ValidSignature E key (Spec.signData cl.sessionIdentifier user service
            (b! "ssh-ed25519") (Spec.tagged (b! "ssh-ed25519") key)) signature ∧ Spec.Utf8 user ∧
          ∀ n i o r, e = .started n i o r → ∃ l q req ty argv,
            pre = l ++ [.received q, .proc (.spawn ty n)] ∧
            Spec.Legal (.channel (.request req)) q ∧
            (Spec.Asks req .shell ∧ (∃ p, S.shell = some p ∧ argv = [p]) ∨
              ∃ command, Spec.Asks req (.exec command) ∧ Spec.Words command argv ∧ argv ≠ []) ∧
            S.start (s.log ++ l ++ [.received q]) argv = true ∧ i = true ∧ o = true ∧ r = true := by
  obtain ⟨s, as, t, h1, h2, h3⟩ := C64_process _ hid ops hc
  refine ⟨s, as, t, h1, h2, fun pre e post ht => ?_⟩
  obtain ⟨cl, s1, before, p, user, service, arg, u, after, g1, g2, g3, g4, -, -, g5⟩ := h3 pre e post ht
  have h5 : ∃ name, Sshd.authenticate E user service arg = ok name ∧ number name = u := by
    simp only [Sshd.handlers] at g4
    rcases hx : Sshd.authenticate E user service arg with n | e | _ <;>
      rw [hx] at g4 <;> simp only [R.map, R.ok.injEq, reduceCtorEq] at g4
    exact ⟨n, rfl, g4⟩
  obtain ⟨name, h5, h6⟩ := h5
  obtain ⟨rfl, h7, key, signature, message, rfl, h8⟩ := (C58_authenticated _ _ _ _ _).mp h5
  cases g3 with
  | publicKey k1 k2 =>
    refine ⟨cl, s1, p, name, service, key, signature, g1, by rw [g2]; simp, k1, h8, h7, ?_⟩
    rintro n i o r rfl
    obtain ⟨l, q, req, x, ty, m1, m2, m3, m4, m5⟩ := g5 n i o r rfl
    simp only [Sshd.connHandlers, Sshd.spawn] at m5
    obtain ⟨argv, m6, m7⟩ := R.bind_eq_ok.mp m5
    split at m7
    · rename_i hstart
      cases m7
      refine ⟨_, q, req, ty, argv, by rw [g2, m1, ← List.append_assoc], m2, ?_, ?_, rfl, rfl, rfl⟩
      · cases x <;> simp only [Spec.runs, Option.some.injEq, reduceCtorEq] at m4
        · subst m4
          exact .inl ⟨m3, (C58_shell _ _).mp m6⟩
        · subst m4
          exact .inr ⟨_, m3, ((C58_words _ _).1 _).mp m6⟩
      · simpa using hstart
    · cases m7

/-! ### C65, C67 what is written and read -/

/-- everything that went over a connection after the handshake, and how far it is -/
theorem whole_flow (cfg : Config) (hid : Spec.Fits cfg.ident) (ops : List Op) {i : Nat} {c : Conn}
    (hc : (run cfg ops).conns[i]? = some c) :
    ∃ s as, Spec.own i ops = some (s, as) ∧
      ((c.phase = .new ∧ c.io = s) ∨
       (c.phase = .ended ∧ ∃ r, Host.handleNewClient cfg.K cfg.ident s = (r, c.io) ∧ ∀ cl, r ≠ ok cl) ∨
       ∃ cl s1 t w u v r', Host.handleNewClient cfg.K cfg.ident s = (ok cl, s1) ∧
        c.io.log = s.log ++ t ∧ c.io.out = s1.out ++ w ∧ s1.inp = u ++ v ++ c.io.inp ∧
        Spec.Written cfg.K (Spec.keysOf cl.sendCipher) (Spec.WriteCut as) (c.phase = .ended) 3 s1.rng
          (Spec.sentPayloads t) w r' ∧
        Spec.Taken cfg.K (Spec.keysOf cl.receiveCipher) (Spec.ReadCut as) 3 (Spec.payloads t) u ∧
        (c.phase ≠ .ended → (v ≠ [] → Spec.ReadCut as) ∧ c.io.rng = r')) := by
  obtain ⟨s, as, more, h1, hcc, -⟩ := conn_of_run hc
  have hf := flow_inv hid s as
  rw [← hcc] at hf
  clear hcc
  refine ⟨s, as ++ more, h1, ?_⟩
  have since : ∀ {o : Option Ends}, (o = none → c.phase = .ended) → (c.phase ≠ .ended → o ≠ none) →
      Since cfg s as c.io o → ∃ cl s1 t w u v r', Host.handleNewClient cfg.K cfg.ident s = (ok cl, s1) ∧
        c.io.log = s.log ++ t ∧ c.io.out = s1.out ++ w ∧ s1.inp = u ++ v ++ c.io.inp ∧
        Spec.Written cfg.K (Spec.keysOf cl.sendCipher) (Spec.WriteCut (as ++ more)) (c.phase = .ended) 3
          s1.rng (Spec.sentPayloads t) w r' ∧
        Spec.Taken cfg.K (Spec.keysOf cl.receiveCipher) (Spec.ReadCut (as ++ more)) 3
          (Spec.payloads t) u ∧
        (c.phase ≠ .ended → (v ≠ [] → Spec.ReadCut (as ++ more)) ∧ c.io.rng = r') := by
    rintro o ho ho' ⟨cl, s1, g1, t, w, u, v, r', g2, g3, g4, g5, g6, g7⟩
    obtain ⟨k1, k2, -, -, k3, -⟩ := handshake_session hid g1
    rw [show (firstEnds cl).send.counter.toNat = 3 by simp only [firstEnds, k2]; rfl] at g5
    rw [show (firstEnds cl).recv.counter.toNat = 3 by simp only [firstEnds, k1]; rfl] at g6
    refine ⟨cl, s1, t, w, u, v, r', g1, by rw [g2, k3], g3, g4, g5.mono (·.append _) ho,
      g6.mono (·.append _), fun hne => ?_⟩
    cases o with
    | none => exact absurd rfl (ho' hne)
    | some e => exact ⟨fun hv => ((g7 e rfl).1 hv).append _, (g7 e rfl).2.1⟩
  cases hp : c.phase with
  | new =>
    rw [FlowInv, hp] at hf
    exact .inl ⟨rfl, hf⟩
  | service cl =>
    rw [FlowInv, hp] at hf
    exact .inr (.inr ⟨cl, c.io, [], [], [], [], c.io.rng, hf,
      by rw [(handshake_session hid hf).2.2.2.2.1]; simp, by simp, by simp, .nil, .nil, by simp⟩)
  | auth sid st =>
    rw [FlowInv, hp] at hf
    have := since (o := some st.ends) (by simp) (by simp) hf
    rw [hp] at this
    exact .inr (.inr this)
  | session user st =>
    rw [FlowInv, hp] at hf
    have := since (o := some st.ends) (by simp) (by simp) hf
    rw [hp] at this
    exact .inr (.inr this)
  | ended =>
    rw [FlowInv, hp] at hf
    rcases hf with hf | hf
    · exact .inr (.inl ⟨rfl, hf⟩)
    · have := since (o := none) (fun _ => hp) (fun h => absurd hp h) hf
      rw [hp] at this
      exact .inr (.inr this)

/-- C65: all that the server ever writes to a client: nothing, before the first step for it; or what the
handshake writes (see C31), if that fails; or after it the packets, sealed with the keys of the handshake and
consecutive numbers, of exactly the payloads that it sent, in that order. A packet is written in part only if
the write was dropped, or at the very end. -/
theorem C65_output (cfg : Config) (hid : Spec.Fits cfg.ident) (ops : List Op) {i : Nat} {c : Conn}
    (hc : (run cfg ops).conns[i]? = some c) :
    ∃ s as, Spec.own i ops = some (s, as) ∧
      ((c.phase = .new ∧ c.io.out = s.out) ∨
       (c.phase = .ended ∧ c.io.out = (Host.handleNewClient cfg.K cfg.ident s).2.out ∧
        ∀ cl s1, Host.handleNewClient cfg.K cfg.ident s ≠ (ok cl, s1)) ∨
       ∃ cl s1 t w r', Host.handleNewClient cfg.K cfg.ident s = (ok cl, s1) ∧
        c.io.log = s.log ++ t ∧ c.io.out = s1.out ++ w ∧
        Spec.Written cfg.K (Spec.keysOf cl.sendCipher) (Spec.WriteCut as) (c.phase = .ended) 3 s1.rng
          (Spec.sentPayloads t) w r') := by
  obtain ⟨s, as, h1, h⟩ := whole_flow cfg hid ops hc
  refine ⟨s, as, h1, ?_⟩
  rcases h with ⟨hp, h⟩ | ⟨hp, r, h2, h3⟩ | ⟨cl, s1, t, w, u, v, r', g1, g2, g3, g4, g5, g6, g7⟩
  · exact .inl ⟨hp, by rw [h]⟩
  · refine .inr (.inl ⟨hp, by rw [h2], fun cl s1 he => ?_⟩)
    rw [h2] at he
    cases he
    exact h3 cl rfl
  · exact .inr (.inr ⟨cl, s1, t, w, r', g1, g2, g3, g5⟩)

/-- C67: the payloads that the server receives from a client after the handshake are those of packets that
are sealed with the keys of the handshake and consecutive numbers, in the order in which they are in the
input, without gaps and without repetition. There are other bytes only where a read was dropped, and at the
very end. -/
theorem C67_input (cfg : Config) (hid : Spec.Fits cfg.ident) (ops : List Op) {i : Nat} {c : Conn}
    (hc : (run cfg ops).conns[i]? = some c) :
    ∃ s as t, Spec.own i ops = some (s, as) ∧ c.io.log = s.log ++ t ∧
      ((t = [] ∧ c.phase = .new ∧ c.io.inp = s.inp) ∨
       (t = [] ∧ c.phase = .ended ∧ c.io.inp = (Host.handleNewClient cfg.K cfg.ident s).2.inp ∧
        ∀ cl s1, Host.handleNewClient cfg.K cfg.ident s ≠ (ok cl, s1)) ∨
       ∃ cl s1 u v, Host.handleNewClient cfg.K cfg.ident s = (ok cl, s1) ∧
        s1.inp = u ++ v ++ c.io.inp ∧
        Spec.Taken cfg.K (Spec.keysOf cl.receiveCipher) (Spec.ReadCut as) 3 (Spec.payloads t) u ∧
        (c.phase ≠ .ended → v ≠ [] → Spec.ReadCut as)) := by
  obtain ⟨s, as, h1, h⟩ := whole_flow cfg hid ops hc
  rcases h with ⟨hp, h⟩ | ⟨hp, r, h2, h3⟩ | ⟨cl, s1, t, w, u, v, r', g1, g2, g3, g4, g5, g6, g7⟩
  · exact ⟨s, as, [], h1, by rw [h]; simp, .inl ⟨rfl, hp, by rw [h]⟩⟩
  · refine ⟨s, as, [], h1, ?_, .inr (.inl ⟨rfl, hp, by rw [h2], fun cl s1 he => ?_⟩)⟩
    rotate_left
    · rw [h2] at he
      cases he
      exact h3 cl rfl
    have := (Tame.handshake cfg.K cfg.ident s).1
    rw [h2] at this
    rw [List.append_nil]
    exact this
  · exact ⟨s, as, t, h1, g2, .inr (.inr ⟨cl, s1, u, v, g1, g4, g6, fun hne => (g7 hne).1⟩)⟩

/-- C67 if no read was dropped: as long as the client is connected, the input after the handshake starts
with exactly the packets that were received. -/
theorem C67_packets (cfg : Config) (hid : Spec.Fits cfg.ident) (ops : List Op) {i : Nat} {c : Conn}
    {s : IoSt} {as : List Client.Step} (hc : (run cfg ops).conns[i]? = some c)
    (ho : Spec.own i ops = some (s, as)) (hr : ¬ Spec.ReadCut as) (hp : c.phase ≠ .ended)
    {cl : HostClient} {s1 : IoSt} (hh : Host.handleNewClient cfg.K cfg.ident s = (ok cl, s1))
    {t : List Event} (ht : c.io.log = s.log ++ t) (hne : t ≠ []) :
    ∃ u, s1.inp = u ++ c.io.inp ∧
      Spec.Taken cfg.K (Spec.keysOf cl.receiveCipher) False 3 (Spec.payloads t) u := by
  obtain ⟨s', as', t', h1, h2, h⟩ := C67_input cfg hid ops hc
  rw [ho] at h1
  cases h1
  rw [ht] at h2
  cases List.append_cancel_left h2
  rcases h with ⟨h, -⟩ | ⟨h, -⟩ | ⟨cl', s1', u, v, g1, g2, g3, g4⟩
  · exact absurd h hne
  · exact absurd h hne
  · rw [hh] at g1
    cases g1
    have hv : v = [] := Classical.not_not.mp fun h => hr (g4 hp h)
    subst hv
    exact ⟨u, by rw [g2, List.append_nil], g3.mono hr⟩

/-! ### C66 random numbers -/

theorem skip_skip (r : Tape) (a b : Nat) : (r.skip a).skip b = r.skip (a + b) := by
  funext i
  simp only [Tape.skip]
  congr 1
  omega

/-- C66 for the handshake: the random numbers are used in order and each once: for the padding of the
KEXINIT, the secret key (32 bytes), the padding of the reply and that of NEWKEYS. -/
theorem C66_handshake (K : Crypto) (ident : Bytes) (s s1 : IoSt) (cl : HostClient)
    (hid : Spec.Fits ident) (h : Host.handleNewClient K ident s = (ok cl, s1)) :
    ∃ k0 k1 k2 raw0 raw1 raw2 secret reply sig, Spec.LeastPad .b8 true Spec.serverKexInit.length k0 ∧
      Spec.PacketOf .b8 true Spec.serverKexInit (s.rng.bytes k0) raw0 ∧
      secret = (s.rng.skip k0).bytes 32 ∧
      reply = Spec.replyBytes (Spec.p256Key K.hostPoint) (K.dhPublic secret) sig ∧
      Spec.LeastPad .b8 true reply.length k1 ∧
      Spec.PacketOf .b8 true reply ((s.rng.skip (k0 + 32)).bytes k1) raw1 ∧
      Spec.LeastPad .b8 true 1 k2 ∧
      Spec.PacketOf .b8 true [21] ((s.rng.skip (k0 + 32 + k1)).bytes k2) raw2 ∧
      s1.out = s.out ++ (ident ++ Spec.crlf ++ raw0 ++ raw1 ++ raw2) ∧
      s1.rng = s.rng.skip (k0 + 32 + k1 + k2) := by
  have hl : (List.replicate (1 <<< 16) (0 : Byte)).length = 65536 := by
    rw [List.length_replicate]; rfl
  obtain ⟨k0, k1, k2, raw0, raw1, raw2, id, pay, cp, g1, g2, g3, g4, g5, g6, -, g7, g8⟩ :=
    Host.handshake_exact K (ident := ident) (s := s) (pktBuf := List.replicate (1 <<< 16) 0) hid
      (by omega) (by omega) h
  have hk : kexPayload = Spec.serverKexInit := C30_kexInit
  rw [hk] at g1 g2
  obtain ⟨sig, -, hrep⟩ := reply_eq K (K.dhPublic ((s.rng.skip k0).bytes 32))
    (theHash K ident id pay ((s.rng.skip k0).bytes 32) cp)
  simp only [skip_skip] at g4 g6 g8
  exact ⟨k0, k1, k2, raw0, raw1, raw2, _, _, sig, g1, g2, rfl, hrep, g3, g4, g5, g6, by rw [g7]; simp, g8⟩

/-! ### C69 the cookie -/

/-- the cookie of the server: 16 bytes of its output, after the identifier, CR LF, the two lengths of the
packet and the number of KEXINIT (RFC 4253, 4.2, 6 and 7.1) -/
def Spec.cookie (ident out : Bytes) : Bytes := (out.drop (ident.length + 2 + 4 + 1 + 1)).take 16

/-- C69 as stated: the cookie of the server is random. -/
def C69_statement : Prop :=
  ∀ (K : Crypto) (ident : Bytes) (s s1 : IoSt) (cl : HostClient), Spec.Fits ident → s.out = [] →
    Host.handleNewClient K ident s = (ok cl, s1) →
    ∃ j, Spec.cookie ident s1.out = (s.rng.skip j).bytes 16

/-- C69: the cookie is the same in each handshake. Missing: that it is random, which is false
(`C69_refuted`). -/
theorem C69_constant_partial (K : Crypto) (ident : Bytes) (s s1 : IoSt) (cl : HostClient)
    (hid : Spec.Fits ident) (ho : s.out = []) (h : Host.handleNewClient K ident s = (ok cl, s1)) :
    Spec.cookie ident s1.out = b! "nomnommunchmunch" := by
  obtain ⟨k0, k1, k2, raw0, raw1, raw2, secret, reply, sig, -, h1, -, -, -, -, -, -, h2, -⟩ :=
    C66_handshake K ident s s1 cl hid h
  have e : s1.out = (ident ++ Spec.crlf ++ Spec.u32 (1 + Spec.serverKexInit.length + (s.rng.bytes k0).length) ++
      [UInt8.ofNat (s.rng.bytes k0).length]) ++ (Spec.serverKexInit ++ s.rng.bytes k0 ++ raw1 ++ raw2) := by
    rw [h2, ho, h1.bytes]
    simp only [List.nil_append, List.append_assoc, List.cons_append]
  rw [Spec.cookie, e, show ident.length + 2 + 4 + 1 + 1 = (ident ++ Spec.crlf ++
    Spec.u32 (1 + Spec.serverKexInit.length + (s.rng.bytes k0).length) ++
    [UInt8.ofNat (s.rng.bytes k0).length]).length + 1 by
      simp only [List.length_append, List.length_singleton]; rfl, List.drop_length_add_append]
  generalize s.rng.bytes k0 ++ raw1 ++ raw2 = z
  simp only [List.append_assoc]
  rfl

/-- C69 is false: with a generator that returns zeros only the cookie would be zeros. -/
theorem C69_refuted : ¬ C69_statement := by
  intro h
  obtain ⟨c, s1, h1, -, -, -⟩ := flat_session [] []
  obtain ⟨j, h2⟩ := h .flat _ _ s1 c (by decide) rfl h1
  rw [C69_constant_partial .flat _ _ s1 c (by decide) rfl h1] at h2
  have h3 := congrArg (fun l : Bytes => l.getD 0 0) h2
  revert h3
  show (110 : UInt8) = 0 → False
  decide

/-- C66 for a whole connection: after the handshake the random numbers that follow are used, in order and
each once, for the padding of the packets (`Spec.Written`), of which there is as little as possible; the
random generator is then just behind them. -/
theorem C66_session (cfg : Config) (hid : Spec.Fits cfg.ident) (ops : List Op) {i : Nat} {c : Conn}
    (hc : (run cfg ops).conns[i]? = some c) (hp : c.phase ≠ .ended) :
    ∃ s as, Spec.own i ops = some (s, as) ∧
      ((c.phase = .new ∧ c.io.rng = s.rng) ∨ ∃ cl s1 t w, Host.handleNewClient cfg.K cfg.ident s = (ok cl, s1) ∧
        c.io.log = s.log ++ t ∧
        Spec.Written cfg.K (Spec.keysOf cl.sendCipher) (Spec.WriteCut as) False 3 s1.rng
          (Spec.sentPayloads t) w c.io.rng) := by
  obtain ⟨s, as, h1, h⟩ := whole_flow cfg hid ops hc
  refine ⟨s, as, h1, ?_⟩
  rcases h with ⟨h2, h⟩ | ⟨h2, -⟩ | ⟨cl, s1, t, w, u, v, r', g1, g2, g3, g4, g5, g6, g7⟩
  · exact .inl ⟨h2, by rw [h]⟩
  · exact absurd h2 hp
  · rw [← (g7 hp).2] at g5
    exact .inr ⟨cl, s1, t, w, g1, g2, g5.mono id hp⟩

/-! ### C68 the clients of a server are those of the sequential program -/

theorem poll_busy {c : Conn} (h : busy c.phase = true) (a b : Client.Step) :
    c.poll cfg a = c.poll cfg b := by
  obtain ⟨phase, io⟩ := c
  cases phase with
  | session => cases h
  | ended => cases h
  | new => rfl
  | service cl =>
    unfold Conn.poll
    simp only [step_service]
  | auth sid st => rfl

theorem busy_service {s s1 io : IoSt} {a : Authenticated} {cl : HostClient}
    (ha : authenticateNewClient cfg.K cfg.H cfg.ident s = (ok a, s1))
    (h2 : Host.handleNewClient cfg.K cfg.ident s = (ok cl, io)) {b : Client.Step} :
    ∀ c, (Conn.poll cfg b ⟨.service cl, io⟩).1 = c → busy c.phase = true := by
  rintro c rfl
  have hauth := auth_service (cfg := cfg) h2
  rw [ha, M.bind_run] at hauth
  unfold Conn.poll
  simp only [step_service, M.bind_run]
  generalize startSt cl = st0 at hauth
  rcases hx : Server.service cfg.K st0 io with ⟨r, io1⟩
  rw [hx] at hauth
  cases r with
  | ok st => rfl
  | err e => cases hauth
  | panic => cases hauth

/-- a step of a client that will be authenticated -/
theorem busy_step {s s1 : IoSt} {a : Authenticated}
    (ha : authenticateNewClient cfg.K cfg.H cfg.ident s = (ok a, s1)) {c : Conn}
    (hinv : AuthInv cfg s c) (hb : busy c.phase = true) (b : Client.Step) :
    ∀ c', (c.poll cfg b).1 = c' → busy c'.phase = true ∨ c' = ⟨.session a.user (Client.start a), s1⟩ := by
  rintro c' rfl
  obtain ⟨phase, io⟩ := c
  cases phase with
  | session => cases hb
  | ended => cases hb
  | new =>
    change io = s at hinv
    subst hinv
    rw [authenticateNewClient, M.bind_run, M.mapErr_run] at ha
    unfold Conn.poll
    simp only [Phase.step, M.bind_run, M.mapErr_run]
    rcases hx : Host.handleNewClient cfg.K cfg.ident io with ⟨r, io1⟩
    rw [hx] at ha
    cases r with
    | ok cl => exact .inl rfl
    | err e => cases ha
    | panic => cases ha
  | service cl =>
    replace hinv : Host.handleNewClient cfg.K cfg.ident s = (ok cl, io) := hinv
    have h : ∀ c, (Conn.poll cfg b ⟨.service cl, io⟩).1 = c → busy c.phase = true :=
      busy_service ha hinv
    generalize (Conn.poll cfg b ⟨.service cl, io⟩).1 = c at h ⊢
    exact .inl (h c rfl)
  | auth sid st =>
    obtain ⟨h3, h4, h5⟩ := hinv
    rw [ha, loop_eq cfg.K cfg.H h3 h4, M.bind_run] at h5
    unfold Conn.poll
    simp only [Phase.step, M.bind_run]
    rcases hx : attempt cfg.K cfg.H sid st io with ⟨r, io1⟩
    rw [hx] at h5
    cases r with
    | ok x =>
      cases x with
      | inl st' => exact .inl rfl
      | inr c =>
        cases h5
        exact .inr rfl
    | err e => cases h5
    | panic => cases h5

/-- a client that will be authenticated is so after a number of steps that does not depend on these -/
theorem authenticated_after (hid : Spec.Fits cfg.ident) {s s1 : IoSt} {a : Authenticated}
    (ha : authenticateNewClient cfg.K cfg.H cfg.ident s = (ok a, s1)) :
    ∃ n, n ≤ s.inp.length + 3 ∧
      (∀ as : List Client.Step, as.length < n → busy (Spec.alone cfg s as).phase = true) ∧
      ∀ as : List Client.Step, as.length = n →
        Spec.alone cfg s as = ⟨.session a.user (Client.start a), s1⟩ := by
  have key : ∀ as : List Client.Step,
      ((∀ as' : List Client.Step, as'.length ≤ as.length → busy (Spec.alone cfg s as').phase = true) ∧
        ∀ as' : List Client.Step, as'.length = as.length → Spec.alone cfg s as' = Spec.alone cfg s as) ∨
      ∃ n, n ≤ as.length ∧
        (∀ as' : List Client.Step, as'.length < n → busy (Spec.alone cfg s as').phase = true) ∧
        ∀ as' : List Client.Step, as'.length = n →
          Spec.alone cfg s as' = ⟨.session a.user (Client.start a), s1⟩ := by
    intro as
    induction as using list_snoc_induction with
    | nil =>
      refine .inl ⟨fun as' h => ?_, fun as' h => ?_⟩
      · rw [List.eq_nil_of_length_eq_zero (Nat.le_zero.mp h)]
        rfl
      · rw [List.eq_nil_of_length_eq_zero h]
    | snoc as b ih =>
      rcases ih with ⟨h1, h2⟩ | ⟨n, h1, h2⟩
      · have same : ∀ as' : List Client.Step, as'.length = (as ++ [b]).length →
            Spec.alone cfg s as' = Spec.alone cfg s (as ++ [b]) := by
          intro as' hl
          have hne : as' ≠ [] := by
            rintro rfl
            simp at hl
          obtain ⟨l, x, rfl⟩ : ∃ l x, as' = l ++ [x] :=
            ⟨_, _, (List.dropLast_concat_getLast hne).symm⟩
          rw [alone_snoc, alone_snoc, h2 l (by simpa using hl),
            poll_busy (h1 as (Nat.le_refl _)) x b]
        have hs := busy_step ha (alone_inv hid s as).2 (h1 as (Nat.le_refl _)) b
        rw [← alone_snoc] at hs
        rcases hs _ rfl with hs | hs
        · refine .inl ⟨fun as' hl => ?_, same⟩
          rcases Nat.lt_or_ge as.length as'.length with hl' | hl'
          · rw [same as' (by rw [List.length_append, List.length_singleton] at hl ⊢; omega)]
            exact hs
          · exact h1 as' hl'
        · refine .inr ⟨(as ++ [b]).length, Nat.le_refl _, fun as' hl => ?_, fun as' hl => ?_⟩
          · rw [List.length_append, List.length_singleton] at hl
            exact h1 as' (by omega)
          · rw [same as' hl, hs]
      · exact .inr ⟨n, by rw [List.length_append]; omega, h2⟩
  rcases key (List.replicate (s.inp.length + 3) .message) with ⟨h, -⟩ | ⟨n, h1, h2⟩
  · have := C51_authenticated cfg hid s (List.replicate (s.inp.length + 3) .message) (by simp)
    have h := h _ (Nat.le_refl _)
    rcases this with ⟨user, st, h'⟩ | h'
    · rw [h'] at h; cases h
    · rw [h'] at h; cases h
  · exact ⟨n, by simpa using h1, h2⟩

/-- where a client is after the steps of a session -/
def Spec.phaseAfter (user : Nat) : R Client.Stop (Client.St ⊕ Unit) → Phase
  | ok (.inl st) => .session user st
  | _ => .ended

theorem alone_session {s io : IoSt} {user : Nat} {st : Client.St} {as sched : List Client.Step}
    (h : Spec.alone cfg s as = ⟨.session user st, io⟩) :
    Spec.alone cfg s (as ++ sched) =
      ⟨Spec.phaseAfter user (Client.steps cfg.K cfg.C user st sched io).1,
        (Client.steps cfg.K cfg.C user st sched io).2⟩ := by
  have ended : ∀ (sched : List Client.Step) io,
      sched.foldl (fun c a => (c.poll cfg a).1) (⟨.ended, io⟩ : Conn) = ⟨.ended, io⟩ := by
    intro sched
    induction sched with
    | nil => intro io; rfl
    | cons b sched ih => intro io; exact ih io
  rw [Spec.alone, List.foldl_append]
  change sched.foldl _ (Spec.alone cfg s as) = _
  rw [h]
  clear h
  induction sched generalizing st io with
  | nil => rfl
  | cons b sched ih =>
    rw [List.foldl_cons, Client.steps]
    unfold Conn.poll
    simp only [Phase.step, M.bind_run, M.mapErr_run]
    rcases hx : Client.step cfg.K cfg.C user st b io with ⟨r, io1⟩
    cases r with
    | ok x =>
      cases x with
      | inl st' => exact ih
      | inr u => exact ended sched io1
    | err e => exact ended sched io1
    | panic => exact ended sched io1

/-- a client that is authenticated panics in its session only -/
theorem alone_panics (hid : Spec.Fits cfg.ident) {s s1 : IoSt} {a : Authenticated}
    (ha : authenticateNewClient cfg.K cfg.H cfg.ident s = (ok a, s1)) {n : Nat}
    (h1 : ∀ as : List Client.Step, as.length < n → busy (Spec.alone cfg s as).phase = true)
    (h2 : ∀ as : List Client.Step, as.length = n →
      Spec.alone cfg s as = ⟨.session a.user (Client.start a), s1⟩) (as : List Client.Step) :
    Spec.AlonePanics cfg s as ↔ ∃ pre sched b st io, as = pre ++ sched ++ [b] ∧ pre.length = n ∧
      Client.steps cfg.K cfg.C a.user (Client.start a) sched s1 = (ok (.inl st), io) ∧
      (Client.step cfg.K cfg.C a.user st b io).1 = R.panic := by
  constructor
  · rintro ⟨as, b, rfl, hp⟩
    rcases Nat.lt_or_ge as.length n with hl | hl
    · have := panic_busy (alone_inv hid s as).2 (h1 as hl) hp
      rw [ha] at this
      cases this
    · have e := alone_session (sched := as.drop n) (h2 (as.take n) (by rw [List.length_take]; omega))
      rw [List.take_append_drop] at e
      rw [e] at hp
      rcases hx : Client.steps cfg.K cfg.C a.user (Client.start a) (as.drop n) s1 with ⟨r, io⟩
      rw [hx] at hp
      cases r with
      | ok x =>
        cases x with
        | inl st =>
          refine ⟨as.take n, as.drop n, b, st, io, by rw [List.take_append_drop],
            by rw [List.length_take]; omega, hx, ?_⟩
          unfold Conn.poll at hp
          simp only [Spec.phaseAfter, Phase.step, M.bind_run, M.mapErr_run] at hp
          rcases hy : Client.step cfg.K cfg.C a.user st b io with ⟨r, io1⟩
          rw [hy] at hp
          cases r with
          | ok x => cases x <;> cases hp
          | err e => cases hp
          | panic => rfl
        | inr u => cases hp
      | err e => cases hp
      | panic => cases hp
  · rintro ⟨pre, sched, b, st, io, rfl, hl, hs, hp⟩
    refine ⟨_, b, rfl, ?_⟩
    rw [alone_session (h2 pre hl), hs]
    unfold Conn.poll
    simp only [Spec.phaseAfter, Phase.step, M.bind_run, M.mapErr_run]
    rcases hx : Client.step cfg.K cfg.C a.user st b io with ⟨r, io1⟩
    rw [hx] at hp
    cases hp
    rfl

/-- C68: each client of a running server that the sequential program authenticates, is authenticated after
some number of steps, and is then where the loop of `Client::start` is after the steps that follow, whatever
other clients do. It stops the server with a step if and only if this step of its session panics. -/
theorem C68_session (cfg : Config) (hid : Spec.Fits cfg.ident) (s s1 : IoSt) (a : Authenticated)
    (ha : authenticateNewClient cfg.K cfg.H cfg.ident s = (ok a, s1)) :
    ∃ n, n ≤ s.inp.length + 3 ∧ ∀ (ops : List Op) (i : Nat), (run cfg ops).running = true →
      (∀ as sched, Spec.own i ops = some (s, as ++ sched) → as.length = n →
        ∀ r io, Client.steps cfg.K cfg.C a.user (Client.start a) sched s1 = (r, io) →
          (run cfg ops).conns[i]? = some ⟨Spec.phaseAfter a.user r, io⟩) ∧
      ∀ as b, Spec.own i ops = some (s, as) →
        ((run cfg (ops ++ [.poll i b])).running = false ↔
          ∃ pre sched st io, as = pre ++ sched ∧ pre.length = n ∧
            Client.steps cfg.K cfg.C a.user (Client.start a) sched s1 = (ok (.inl st), io) ∧
            (Client.step cfg.K cfg.C a.user st b io).1 = R.panic) := by
  obtain ⟨n, h1, h2, h3⟩ := authenticated_after hid ha
  refine ⟨n, h1, fun ops i hr => ⟨fun as sched ho hl r io hs => ?_, fun as b ho => ?_⟩⟩
  · rw [C51_isolated_partial cfg ops hr i, ho, Option.map_some, alone_session (h3 as hl), hs]
  · have hp : (run cfg (ops ++ [.poll i b])).running = false ↔ Spec.AlonePanics cfg s (as ++ [b]) := by
      rw [run_snoc]
      unfold State.step
      rw [if_pos hr]
      simp only [C51_isolated_partial cfg ops hr i, ho, Option.map_some, Bool.not_eq_false']
      constructor
      · exact fun h => ⟨as, b, rfl, h⟩
      · rintro ⟨as0, b0, e, h⟩
        obtain ⟨e1, e2⟩ := List.append_inj' e rfl
        cases e1
        cases e2
        exact h
    rw [hp, alone_panics hid ha h2 h3]
    constructor
    · rintro ⟨pre, sched, b0, st, io, e, g1, g2, g3⟩
      obtain ⟨e1, e2⟩ := List.append_inj' e rfl
      cases e1
      cases e2
      exact ⟨pre, sched, st, io, rfl, g1, g2, g3⟩
    · rintro ⟨pre, sched, st, io, e, g1, g2, g3⟩
      exact ⟨pre, sched, b, st, io, by rw [e], g1, g2, g3⟩

/-- C68 with the premises of C37: a client that completes the handshake, asks for the service, makes requests
and probes that are refused or answered and then one that is accepted, and then sends the payloads `ps`, is
in a session with the user that the handler returned, on which C62 can be used: `ps` are still to be read,
and nothing is in the way of the replies. -/
theorem C68_served (cfg : Config) (s s1 : IoSt) (c : HostClient)
    (p0 rest : Bytes) (t e : List Event) (u : Nat) (ps : List Bytes) (hid : Spec.Fits cfg.ident)
    (h : Host.handleNewClient cfg.K cfg.ident s = (ok c, s1)) (hw : s.wcap = none)
    (hlen : s.inp.length + 4 < 2 ^ 64) (hp0 : Spec.ServiceRequested p0)
    (hr : Spec.Rounds cfg.H c.sessionIdentifier (s.log ++ [.received p0, .sent Spec.acceptReply]) t)
    (ha : Spec.Accepted cfg.H c.sessionIdentifier
      (s.log ++ [.received p0, .sent Spec.acceptReply] ++ t) u e)
    (hi : Spec.Arrive cfg.K (Spec.keysOf c.receiveCipher) 3
      (Spec.payloads ([.received p0, .sent Spec.acceptReply] ++ t ++ e) ++ ps) s1.inp rest) :
    ∃ a s2, authenticateNewClient cfg.K cfg.H cfg.ident s = (ok a, s2) ∧ a.user = u ∧
      s2.log = s.log ++ [.received p0, .sent Spec.acceptReply] ++ t ++ e ∧ s2.wcap = none ∧
      Spec.keysOf a.receive = Spec.keysOf c.receiveCipher ∧
      a.receive.counter.toNat = 5 + (Spec.payloads t).length ∧
      a.send.counter.toNat = 5 + (Spec.payloads t).length ∧
      Spec.Arrive cfg.K (Spec.keysOf a.receive) a.receive.counter.toNat ps s2.inp rest := by
  obtain ⟨m, hi1, hi2⟩ := hi.append
  obtain ⟨a, s2, g1, g2, g3, g4, g5, g6, g7, g8, g9⟩ :=
    C37_served cfg.K cfg.H cfg.ident s s1 c p0 m t e u hid h hw hlen hp0 hr ha hi1
  refine ⟨a, s2, g1, g2, g3, g9, g5, g6, g8, ?_⟩
  obtain ⟨p, a', e1, e2, _⟩ := ha.start
  rw [g4, g5, g6]
  rw [payloads_append, e2, payloads_append, List.length_append, List.length_append] at hi2
  simp only [Spec.payloads, List.filterMap_cons, List.filterMap_nil, List.length_cons,
    List.length_nil] at hi2
  rw [show 3 + (0 + 1 + (List.filterMap _ t).length + (0 + 1)) = 5 + (Spec.payloads t).length by
    unfold Spec.payloads; omega] at hi2
  exact hi2

end Nora
