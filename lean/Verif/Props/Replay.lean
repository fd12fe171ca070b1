import Verif.Props.Waiting
import Verif.Props.RfcConn
import Verif.Props.Kex
/-
C112: a signature belongs to one connection.
-/
namespace Nora
open R Server

variable {cfg : Config}

/-! ### the specification -/

/-- The transcript of the handshake of a client that connects with `s`, as the server sees it: the client's
identification string, KEXINIT and ephemeral key are read from its stream. The rest is the server's. -/
def Spec.Exchanged (K : Crypto) (ident : Bytes) (s : IoSt) (T : Spec.Transcript) : Prop :=
  ∃ a rest secret, Spec.Shakes s.inp (.session a rest) ∧ Spec.SecretOf s.rng secret ∧
    T = { clientId := a.id, serverId := ident, clientKexInit := a.pay, serverKexInit := Spec.serverKexInit
          hostKey := Spec.p256Key K.hostPoint, clientEphemeral := a.cp, serverEphemeral := K.dhPublic secret
          secret := K.dhShared secret a.cp }

/-- The keys for a shared secret and an exchange hash that is also the session identifier (RFC 4253, 7.2). -/
def Spec.Derived (hash : Bytes → Bytes) (secret h : Bytes) (toServer toClient : Spec.Keys) : Prop :=
  ∃ k, Spec.MpintBody (Spec.beVal secret) k ∧
    toServer.data = Spec.keyBlock hash (Spec.str k) h (Spec.keyLetter .encryption .clientToServer) h 0 ∧
    toServer.length = Spec.keyBlock hash (Spec.str k) h (Spec.keyLetter .encryption .clientToServer) h 1 ∧
    toClient.data = Spec.keyBlock hash (Spec.str k) h (Spec.keyLetter .encryption .serverToClient) h 0 ∧
    toClient.length = Spec.keyBlock hash (Spec.str k) h (Spec.keyLetter .encryption .serverToClient) h 1

theorem Spec.NextPacket.length {N : Nat} {w p r : Bytes} (h : Spec.NextPacket N w p r) : p.length ≤ N := by
  obtain ⟨raw, -, ⟨pad, rfl, -⟩, hl⟩ := h
  simp only [List.length_append, List.length_cons] at hl
  omega

/-! ### one transcript for each connection -/

theorem Spec.Exchanged.unique {K : Crypto} {ident : Bytes} {s : IoSt} {T T' : Spec.Transcript}
    (h : Spec.Exchanged K ident s T) (h' : Spec.Exchanged K ident s T') : T = T' := by
  obtain ⟨a, rest, secret, h1, h2, rfl⟩ := h
  obtain ⟨a', rest', secret', h1', h2', rfl⟩ := h'
  cases C99_one_outcome _ _ _ h1 h1'
  obtain rfl := h2.unique h2'
  rfl

theorem handshake_exchanged {K : Crypto} {ident : Bytes} {s s1 : IoSt} {c : HostClient}
    (hid : Spec.Fits ident) (h : Host.handleNewClient K ident s = (ok c, s1)) :
    ∃ T e, Spec.Exchanged K ident s T ∧ Spec.TranscriptFits T ∧ T.secret.length = 32 ∧
      Spec.TranscriptBytes T e ∧ c.sessionIdentifier = K.hash e ∧
      Spec.Derived K.hash T.secret (K.hash e) (Spec.keysOf c.receiveCipher) (Spec.keysOf c.sendCipher) := by
  obtain ⟨pad, raw, hp, ho⟩ := Host.outcome K s hid
  rw [h] at ho
  cases ho with
  | done id pay secret cp r2 raw1 raw2 pay3 r3 _ hD hout hn hm hi =>
    have hA := hD.shakes (.packet hn (.newKeys (reads_iff.mp hm)))
    obtain ⟨k, hk, hs⟩ := hD.random
    rw [show kexPayload = Spec.serverKexInit from C30_kexInit] at hk
    obtain ⟨o, r, pay2, ⟨⟨r0, h1, h2⟩, hk'⟩, hN, hn2, hg⟩ := hD.reached
    obtain ⟨e, he, he'⟩ := hashOf_theHash K ident id pay secret cp
    refine ⟨_, e, ⟨_, _, _, hA, ⟨k, hk, hs⟩, rfl⟩, ?_, K.dhShared_length _ _, he, ?_, ?_⟩
    · obtain ⟨⟨-, hI, -⟩, -⟩ := C21_sound _ _ _ h1
      have hl : pay.length ≤ 65536 := h2.length
      have hP : (Spec.p256Key K.hostPoint).length = 104 := by
        simp only [Spec.p256Key, List.length_append, str_length, K.hostPoint_length]
        rfl
      refine ⟨?_, hid, ?_, ?_, ?_, ?_, ?_, ?_⟩
      · show id.length < 2 ^ 32
        omega
      · show pay.length < 2 ^ 32
        omega
      · show Spec.serverKexInit.length < 2 ^ 32
        decide +kernel
      · show (Spec.p256Key K.hostPoint).length < 2 ^ 32
        omega
      · show cp.length < 2 ^ 32
        have := hg.2
        omega
      · show (K.dhPublic secret).length < 2 ^ 32
        rw [K.dhPublic_length]
        decide
      · show (K.dhShared secret cp).length + 1 < 2 ^ 32
        rw [K.dhShared_length]
        decide
    · exact he'
    · rw [← he']
      exact ⟨_, mpBody_spec _, rfl, rfl, rfl, rfl⟩

/-! ### the requests of a connection -/

theorem loop_log {sid : Bytes} {st : AuthSt} {s : IoSt} (hsid : Spec.Fits sid) (hst : st.Ok) :
    ∃ t, (Server.loop cfg.K cfg.H sid st s).2.log = s.log ++ t := by
  obtain ⟨t, u, h, -⟩ := loopN_ok cfg.K cfg.H hsid (s.inp.length + 1) st s hst (by omega)
  exact ⟨t ++ u, by rw [← List.append_assoc]; exact h⟩

/-- the calls of the handler belong to the authentication -/
theorem auth_event (hid : Spec.Fits cfg.ident) {s : IoSt} {as : List Client.Step} {t : List Event}
    {user service : Bytes} {arg : AuthArg} {r : Option Nat}
    (ht : (Spec.alone cfg s as).io.log = s.log ++ t) (h : .auth user service arg r ∈ t) :
    ∃ pre post, (authenticateNewClient cfg.K cfg.H cfg.ident s).2.log =
      s.log ++ (pre ++ .auth user service arg r :: post) := by
  have hlog := log_inv hid s as
  obtain ⟨hal, hinv⟩ := alone_inv hid s as
  generalize Spec.alone cfg s as = c at hlog hal hinv ht
  have session : ∀ {a s1 sched res}, authenticateNewClient cfg.K cfg.H cfg.ident s = (ok a, s1) →
      Client.steps cfg.K cfg.C a.user (Client.start a) sched s1 = (res, c.io) →
      ∃ pre post, (authenticateNewClient cfg.K cfg.H cfg.ident s).2.log =
        s.log ++ (pre ++ .auth user service arg r :: post) := by
    intro a s1 sched res ha hrun
    obtain ⟨cl, s0, h1, before, p, user', service', arg', h2, -⟩ :=
      C34_no_bypass cfg.K cfg.H cfg.ident s s1 a hid ha
    obtain ⟨t1, h3, -⟩ := session_log hrun
    replace h3 : c.io.log = s1.log ++ t1 := h3
    have hno := (C86_handlers_partial hrun h3).1 user service arg r
    rw [ha]
    rw [h2, ht, List.append_assoc, List.append_assoc] at h3
    rw [List.append_cancel_left h3, ← List.append_assoc, List.mem_append] at h
    rcases h with h | h
    · obtain ⟨pre, post, h⟩ := List.append_of_mem h
      exact ⟨pre, post, by rw [h2, List.append_assoc, h]⟩
    · exact absurd h hno
  cases hal with
  | busy g1 g2 =>
    rename_i phase io
    cases phase with
    | new =>
      rw [show io.log = s.log from hlog] at ht
      have : t = [] := by simpa using ht
      rw [this] at h
      cases h
    | service cl =>
      rw [show io.log = s.log from hlog] at ht
      have : t = [] := by simpa using ht
      rw [this] at h
      cases h
    | auth sid st =>
      obtain ⟨k1, k2, k3⟩ := hinv
      obtain ⟨t', h'⟩ := loop_log (cfg := cfg) (s := io) k1 k2
      obtain ⟨pre, post, rfl⟩ := List.append_of_mem h
      refine ⟨pre, post ++ t', ?_⟩
      rw [k3, h', show io.log = _ from ht]
      simp
    | session user st => exact absurd rfl (g1 user st)
    | ended => exact absurd rfl g2
  | refused g1 g2 =>
    rename_i io r'
    obtain ⟨pre, post, rfl⟩ := List.append_of_mem h
    exact ⟨pre, post, by rw [g1]; exact ht⟩
  | session g1 g2 => exact session g1 g2
  | ended g1 g2 g3 => exact session g1 g2

theorem bound_core (hid : Spec.Fits cfg.ident) {ops : List Op} {i : Nat} {c : Conn} {s : IoSt}
    {as : List Client.Step} {t : List Event} (hc : (run cfg ops).conns[i]? = some c)
    (ho : Spec.own i ops = some (s, as)) (ht : c.io.log = s.log ++ t)
    {user service algorithm key signature message : Bytes} {r : Option Nat}
    (h : .auth user service (.publicKey algorithm key signature message) r ∈ t) :
    ∃ T e cl s1, Spec.Exchanged cfg.K cfg.ident s T ∧ Spec.TranscriptFits T ∧ T.secret.length = 32 ∧
      Spec.TranscriptBytes T e ∧
      message = Spec.signData (cfg.K.hash e) user service algorithm (Spec.tagged algorithm key) ∧
      Host.handleNewClient cfg.K cfg.ident s = (ok cl, s1) ∧
      Spec.Derived cfg.K.hash T.secret (cfg.K.hash e) (Spec.keysOf cl.receiveCipher)
        (Spec.keysOf cl.sendCipher) ∧
      Spec.Fits user ∧ Spec.Fits service ∧ Spec.Fits algorithm ∧ Spec.Fits (Spec.tagged algorithm key) := by
  obtain ⟨s'', as'', more, h2, hcc, -⟩ := conn_of_run hc
  rw [ho] at h2
  simp only [Option.some.injEq, Prod.mk.injEq] at h2
  obtain ⟨rfl, rfl⟩ := h2
  obtain ⟨pre, post, h3⟩ := auth_event hid (by rw [← hcc]; exact ht) h
  obtain ⟨cl, s1, hh, _, p, _, hl, hm⟩ := C35_bound cfg.K cfg.H cfg.ident s _ _ _ _ _ _ _ _ _ hid h3
  obtain ⟨T, e, k1, k2, k3, k4, k5, k6⟩ := handshake_exchanged hid hh
  obtain ⟨f1, f2, f3, f4, _⟩ := hl.fits
  rw [k5] at hm
  exact ⟨T, e, cl, s1, k1, k2, k3, k4, hm, hh, k6, f1, f2, f3, f4⟩

/-! ### C112 -/

/-- C112: what a client has to sign is the hash of the transcript of its own connection, with its request. In
any run of the server, also one that has stopped. The keys of the connection come from the same transcript. -/
theorem C112_bound (cfg : Config) (hid : Spec.Fits cfg.ident) (ops : List Op) (i : Nat) (c : Conn) (s : IoSt)
    (as : List Client.Step) (t : List Event) (hc : (run cfg ops).conns[i]? = some c)
    (ho : Spec.own i ops = some (s, as)) (ht : c.io.log = s.log ++ t)
    (user service algorithm key signature message : Bytes) (r : Option Nat)
    (h : .auth user service (.publicKey algorithm key signature message) r ∈ t) :
    ∃ T e cl s1, Spec.Exchanged cfg.K cfg.ident s T ∧ Spec.TranscriptBytes T e ∧
      message = Spec.signData (cfg.K.hash e) user service algorithm (Spec.tagged algorithm key) ∧
      Host.handleNewClient cfg.K cfg.ident s = (ok cl, s1) ∧
      Spec.Derived cfg.K.hash T.secret (cfg.K.hash e) (Spec.keysOf cl.receiveCipher)
        (Spec.keysOf cl.sendCipher) := by
  obtain ⟨T, e, cl, s1, k1, -, -, k2, k3, k4, k5, -⟩ := bound_core hid hc ho ht h
  exact ⟨T, e, cl, s1, k1, k2, k3, k4, k5⟩

/-- C112: nobody is in the middle. Someone has signed for a connection with the transcript `T'`, as they have
seen it, and a server is asked to accept this signature. Then they have asked for the same as the client of
this server; and their transcript is the one of the server, so that both have the same keys, or the two
transcripts are a collision of the hash. -/
theorem C112_agreement (cfg : Config) (hid : Spec.Fits cfg.ident) (ops : List Op) (i : Nat) (c : Conn)
    (s : IoSt) (as : List Client.Step) (t : List Event) (hc : (run cfg ops).conns[i]? = some c)
    (ho : Spec.own i ops = some (s, as)) (ht : c.io.log = s.log ++ t)
    (user service algorithm key signature message : Bytes) (r : Option Nat)
    (h : .auth user service (.publicKey algorithm key signature message) r ∈ t)
    (T' : Spec.Transcript) (e' : Bytes) (hT : Spec.TranscriptFits T') (h32 : T'.secret.length = 32)
    (he : Spec.TranscriptBytes T' e') (user' service' algorithm' key' : Bytes) (f1 : Spec.Fits user')
    (f2 : Spec.Fits service') (f3 : Spec.Fits algorithm') (f4 : Spec.Fits (Spec.tagged algorithm' key'))
    (hm : message = Spec.signData (cfg.K.hash e') user' service' algorithm' (Spec.tagged algorithm' key')) :
    user' = user ∧ service' = service ∧ algorithm' = algorithm ∧ key' = key ∧
    ((Spec.Exchanged cfg.K cfg.ident s T' ∧ ∃ cl s1, Host.handleNewClient cfg.K cfg.ident s = (ok cl, s1) ∧
        Spec.Derived cfg.K.hash T'.secret (cfg.K.hash e') (Spec.keysOf cl.receiveCipher)
          (Spec.keysOf cl.sendCipher)) ∨
      ∃ T e, Spec.Exchanged cfg.K cfg.ident s T ∧ Spec.TranscriptBytes T e ∧ e' ≠ e ∧
        cfg.K.hash e' = cfg.K.hash e) := by
  obtain ⟨T, e, cl, s1, k1, k2, k3, k4, k5, k6, k7, g1, g2, g3, g4⟩ := bound_core hid hc ho ht h
  have fit : ∀ x, Spec.Fits (cfg.K.hash x) := by
    intro x
    rw [Spec.Fits, cfg.K.hash_length]
    decide
  obtain ⟨x0, x1, x2, x3, x4⟩ := C35_injective _ _ _ _ _ _ _ _ _ _ (fit _) f1 f2 f3 f4 (fit _) g1 g2 g3 g4
    (hm.symm.trans k5)
  refine ⟨x1, x2, x3, x4, ?_⟩
  by_cases hee : e' = e
  · subst hee
    obtain rfl := C28_injective_32 T' T e' hT k2 h32 k3 he k4
    exact .inl ⟨k1, cl, s1, k6, k7⟩
  · exact .inr ⟨T, e, k1, k4, hee, x0⟩

/-- C112: no signature is good for two connections. If the handlers of two connections, of one server or of
two, are asked to accept a signature of the same bytes, then both connections have the same transcript, with
the same ephemeral keys, or there is a collision of the hash. -/
theorem C112_replay (cfg cfg' : Config) (hid : Spec.Fits cfg.ident) (hid' : Spec.Fits cfg'.ident)
    (hK : cfg'.K.hash = cfg.K.hash) (ops ops' : List Op) (i i' : Nat) (c c' : Conn) (s s' : IoSt)
    (as as' : List Client.Step) (t t' : List Event) (hc : (run cfg ops).conns[i]? = some c)
    (hc' : (run cfg' ops').conns[i']? = some c') (ho : Spec.own i ops = some (s, as))
    (ho' : Spec.own i' ops' = some (s', as')) (ht : c.io.log = s.log ++ t) (ht' : c'.io.log = s'.log ++ t')
    (user service algorithm key signature user' service' algorithm' key' signature' message : Bytes)
    (r r' : Option Nat) (h : .auth user service (.publicKey algorithm key signature message) r ∈ t)
    (h' : .auth user' service' (.publicKey algorithm' key' signature' message) r' ∈ t') :
    user' = user ∧ service' = service ∧ algorithm' = algorithm ∧ key' = key ∧
    ∃ T T' e e', Spec.Exchanged cfg.K cfg.ident s T ∧ Spec.Exchanged cfg'.K cfg'.ident s' T' ∧
      Spec.TranscriptBytes T e ∧ Spec.TranscriptBytes T' e' ∧
      (T' = T ∨ e' ≠ e ∧ cfg.K.hash e' = cfg.K.hash e) := by
  obtain ⟨T', e', cl', s1', k1', k2', k3', k4', k5', k6', k7', g1', g2', g3', g4'⟩ :=
    bound_core hid' hc' ho' ht' h'
  rw [hK] at k5'
  obtain ⟨x1, x2, x3, x4, h⟩ := C112_agreement cfg hid ops i c s as t hc ho ht _ _ _ _ _ _ r h T' e' k2' k3' k4'
    _ _ _ _ g1' g2' g3' g4' k5'
  refine ⟨x1, x2, x3, x4, ?_⟩
  rcases h with ⟨h, -⟩ | ⟨T, e, h1, h2, h3, h4⟩
  · exact ⟨T', T', e', e', h, k1', k4', k4', .inl rfl⟩
  · exact ⟨T, T', e, e', h1, k1', h2, k4', .inr ⟨h3, h4⟩⟩

/-- The client of `sshdRequest` with a server that knows passwords only: the handler is asked. -/
example : ∃ ops i as c t signature message,
    (run wholeConfig ops).conns[i]? = some c ∧
    Spec.own i ops = some (clientState [Spec.encode (.serviceRequest ⟨b! "ssh-userauth"⟩), sshdRequest] [], as) ∧
    c.io.log = [] ++ t ∧
    .auth (b! "root") (b! "ssh-connection") (.publicKey (b! "ssh-ed25519") (List.replicate 32 1) signature
      message) none ∈ t := by
  obtain ⟨c, s1, h1, h2, h3, h4⟩ := flat_session [Spec.encode (.serviceRequest ⟨b! "ssh-userauth"⟩), sshdRequest] []
  obtain ⟨a, g1, g2⟩ := handshake_shakes (cfg := wholeConfig) (by decide) rfl h1
  have hs := conversation_stream [] [Spec.encode (.serviceRequest ⟨b! "ssh-userauth"⟩), sshdRequest] 3
    (by decide +kernel)
  rw [h4] at g1
  rw [h2, h3] at g2
  obtain ⟨ops, i, as, c, -, k2, k3, -, k5, -⟩ := (C111_waiting wholeConfig
    (clientState [Spec.encode (.serviceRequest ⟨b! "ssh-userauth"⟩), sshdRequest] []) _ _ (by decide) rfl
    (by decide +kernel)).mpr (.asked g1 g2 (legal_encode (show Spec.Fits _ by decide))
      (.cons (.refused (.publicKey (legal_encode ⟨by decide, by decide, by decide, by decide, by decide +kernel⟩)
        (by decide +kernel)) (by rfl)) .nil) hs)
  exact ⟨ops, i, as, c, _, _, _, k3, k2, k5,
    List.mem_append_right _ (List.mem_append_left _ (.tail _ (.head _)))⟩

end Nora
