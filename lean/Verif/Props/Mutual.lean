import Verif.Props.Replay
import Verif.Props.Copy
import Verif.Props.Integrity
/-
C113: both sides of a connection are authenticated to each other. The assumption is that signatures cannot be
forged; it is a premise of the theorems.
-/
namespace Nora
open R Server

variable {cfg : Config}

/-! ### the specification -/

/-- The transcript for which the server signs: the client that connects with `s` has sent its identification
string, an acceptable KEXINIT and a key. (What it sends after that does not matter, other than for
`Spec.Exchanged`.) -/
def Spec.Told (K : Crypto) (ident : Bytes) (s : IoSt) (T : Spec.Transcript) : Prop :=
  ∃ id pay cp p r r' r'' o secret, Spec.Greeting s.inp id r ∧
    Spec.NextPacket 65536 r pay r' ∧ Spec.Reads pay (.kexInit o) ∧ Spec.Acceptable o ∧
    Spec.NextPacket 65536 r' p r'' ∧ cp.length = 32 ∧ Spec.Reads p (.kexEcdhInit ⟨cp⟩) ∧
    Spec.SecretOf s.rng secret ∧
    T = { clientId := id, serverId := ident, clientKexInit := pay, serverKexInit := Spec.serverKexInit
          hostKey := Spec.p256Key K.hostPoint, clientEphemeral := cp, serverEphemeral := K.dhPublic secret
          secret := K.dhShared secret cp }

/-- After its identification string and a packet, the output of a connection has a reply with a signature of
`m`. -/
def Spec.HasSigned (cfg : Config) (ops : List Op) (m : Bytes) : Prop :=
  ∃ i c s as w p0 w1 hostKey ephemeral sig w2, (run cfg ops).conns[i]? = some c ∧
    Spec.own i ops = some (s, as) ∧ c.io.out = s.out ++ cfg.ident ++ Spec.crlf ++ w ∧
    Spec.NextPacket 65536 w p0 w1 ∧ Spec.NextPacket 65536 w1 (Spec.replyBytes hostKey ephemeral sig) w2 ∧
    Spec.P256Signature (cfg.K.sign m).1 (cfg.K.sign m).2 sig

/-! ### the transcripts of a connection -/

theorem Spec.Exchanged.told {K : Crypto} {ident : Bytes} {s : IoSt} {T : Spec.Transcript}
    (h : Spec.Exchanged K ident s T) : Spec.Told K ident s T := by
  obtain ⟨a, rest, secret, h1, h2, rfl⟩ := h
  cases h1 with
  | greeting g0 g1 =>
    cases g1 with
    | packet g2 g3 =>
      cases g3 with
      | kexInit g4 g5 g6 =>
        cases g6 with
        | packet g7 g8 =>
          cases g8 with
          | key g9 g10 g11 =>
            cases g11 with
            | packet g12 g13 =>
              cases g13 with
              | newKeys g14 => exact ⟨_, _, _, _, _, _, _, _, _, g0, g2, g4, g5, g7, g9, g10, h2, rfl⟩

theorem Spec.Told.unique {K : Crypto} {ident : Bytes} {s : IoSt} {T T' : Spec.Transcript}
    (h : Spec.Told K ident s T) (h' : Spec.Told K ident s T') : T = T' := by
  obtain ⟨id, pay, cp, p, r, r', r'', o, secret, h1, h2, -, -, h3, -, h4, h5, rfl⟩ := h
  obtain ⟨id2, pay2, cp2, p2, u, u', u'', o2, secret2, g1, g2, -, -, g3, -, g4, g5, rfl⟩ := h'
  have := ((C21_exact _ _ _).mpr h1).symm.trans ((C21_exact _ _ _).mpr g1)
  simp only [R.ok.injEq, Prod.mk.injEq] at this
  obtain ⟨rfl, rfl⟩ := this
  obtain ⟨rfl, rfl⟩ := h2.unique g2
  obtain ⟨rfl, rfl⟩ := h3.unique g3
  have := h4.unique g4
  simp only [Message.kexEcdhInit.injEq, Kex.EcdhInit.mk.injEq] at this
  obtain rfl := this
  obtain rfl := h5.unique g5
  rfl

theorem Spec.Told.fits {K : Crypto} {ident : Bytes} {s : IoSt} {T : Spec.Transcript} (hid : Spec.Fits ident)
    (h : Spec.Told K ident s T) : Spec.TranscriptFits T ∧ T.secret.length = 32 := by
  obtain ⟨id, pay, cp, p, r, r', r'', o, secret, h1, h2, -, -, h3, h4, -, -, rfl⟩ := h
  refine ⟨⟨?_, hid, ?_, ?_, ?_, ?_, ?_, ?_⟩, K.dhShared_length _ _⟩
  · obtain ⟨⟨-, hI, -⟩, -⟩ := C21_sound _ _ _ ((C21_exact _ _ _).mpr h1)
    show id.length < 2 ^ 32
    omega
  · have := h2.length
    show pay.length < 2 ^ 32
    omega
  · show Spec.serverKexInit.length < 2 ^ 32
    decide +kernel
  · show (Spec.p256Key K.hostPoint).length < 2 ^ 32
    have hP : (Spec.p256Key K.hostPoint).length = 104 := by
      simp only [Spec.p256Key, List.length_append, str_length, K.hostPoint_length]
      rfl
    omega
  · show cp.length < 2 ^ 32
    omega
  · show (K.dhPublic secret).length < 2 ^ 32
    rw [K.dhPublic_length]
    omega
  · show (K.dhShared secret cp).length + 1 < 2 ^ 32
    rw [K.dhShared_length]
    omega

/-! ### what is sent -/

theorem Replied.told {K : Crypto} {ident id pay secret cp r2 raw1 raw2 : Bytes} {s : IoSt}
    (h : Replied K 65536 ident s id pay secret cp r2 raw1 raw2) :
    ∃ T e sig pad, Spec.Told K ident s T ∧ Spec.TranscriptBytes T e ∧
      Spec.P256Signature (K.sign (K.hash e)).1 (K.sign (K.hash e)).2 sig ∧
      Spec.PacketOf .b8 true (Spec.replyBytes T.hostKey T.serverEphemeral sig) pad raw1 := by
  obtain ⟨o, r, pay2, ⟨⟨r0, h1, h2⟩, hk⟩, hN, hn, hg⟩ := h.reached
  obtain ⟨k, hk', hs⟩ := h.random
  rw [show kexPayload = Spec.serverKexInit from C30_kexInit] at hk'
  obtain ⟨pad, hp⟩ := h.reply
  obtain ⟨e, he, he'⟩ := hashOf_theHash K ident id pay secret cp
  obtain ⟨sig, hsig, hrep⟩ := reply_eq K (K.dhPublic secret) (theHash K ident id pay secret cp)
  rw [hrep] at hp
  rw [he'] at hsig
  exact ⟨_, e, sig, pad, ⟨id, pay, cp, pay2, r0, r, r2, o, secret, (C21_exact _ _ _).mp h1, h2, reads_iff.mp hk,
    acceptable_iff.mpr hN, hn, hg.2, reads_iff.mp hg.1, ⟨k, hk', hs⟩, rfl⟩, he, hsig, hp⟩

/-- the output of a connection starts like this, as far as it goes -/
def Begins (K : Crypto) (ident : Bytes) (s : IoSt) (out : Bytes) : Prop :=
  ∃ pad0 raw0, Spec.PacketOf .b8 true Spec.serverKexInit pad0 raw0 ∧
    (out <+: s.out ++ (ident ++ Spec.crlf ++ raw0) ∨
     ∃ T e sig pad raw1 y, Spec.Told K ident s T ∧ Spec.TranscriptBytes T e ∧
      Spec.P256Signature (K.sign (K.hash e)).1 (K.sign (K.hash e)).2 sig ∧
      Spec.PacketOf .b8 true (Spec.replyBytes T.hostKey T.serverEphemeral sig) pad raw1 ∧
      out <+: s.out ++ (ident ++ Spec.crlf ++ raw0 ++ (raw1 ++ y)))

theorem handshake_begins (K : Crypto) {ident : Bytes} (s : IoSt) (hid : Spec.Fits ident) (w : Bytes)
    (hw : w ≠ [] → ∃ cl s1, Host.handleNewClient K ident s = (ok cl, s1)) :
    Begins K ident s ((Host.handleNewClient K ident s).2.out ++ w) := by
  obtain ⟨pad, raw, hp, ho⟩ := Host.outcome K s hid
  rw [show kexPayload = Spec.serverKexInit from C30_kexInit] at hp
  refine ⟨pad, raw, hp, ?_⟩
  have nil : (∀ cl, (Host.handleNewClient K ident s).1 ≠ ok cl) → w = [] := by
    intro h
    cases w with
    | nil => rfl
    | cons b w =>
      obtain ⟨cl, s1, h1⟩ := hw (by simp)
      exact absurd (by rw [h1]) (h cl)
  revert ho nil
  generalize (Host.handleNewClient K ident s).1 = res
  generalize (Host.handleNewClient K ident s).2 = s'
  intro ho nil
  have full : (∀ cl, res ≠ ok cl) → s'.out = s.out ++ (ident ++ Spec.crlf ++ raw) →
      s'.out ++ w <+: s.out ++ (ident ++ Spec.crlf ++ raw) := by
    intro h1 h2
    rw [nil h1, h2, List.append_nil]
    exact List.prefix_rfl
  have rep : ∀ {id pay secret cp r2 raw1 raw2 x}, Replied K 65536 ident s id pay secret cp r2 raw1 raw2 →
      x <+: s.out ++ (ident ++ Spec.crlf ++ raw) ++ (raw1 ++ raw2 ++ w) → ∃ T e sig pad raw1 y, Spec.Told K ident s T ∧
      Spec.TranscriptBytes T e ∧ Spec.P256Signature (K.sign (K.hash e)).1 (K.sign (K.hash e)).2 sig ∧
      Spec.PacketOf .b8 true (Spec.replyBytes T.hostKey T.serverEphemeral sig) pad raw1 ∧
      x <+: s.out ++ (ident ++ Spec.crlf ++ raw ++ (raw1 ++ y)) := by
    intro id pay secret cp r2 raw1 raw2 x hD hx
    obtain ⟨T, e, sig, pad, h1, h2, h3, h4⟩ := hD.told
    refine ⟨T, e, sig, pad, raw1, raw2 ++ w, h1, h2, h3, h4, ?_⟩
    simpa using hx
  have rep' : ∀ {raw1 raw2 y : Bytes}, s'.out = y ++ (raw1 ++ raw2) → s'.out ++ w <+: y ++ (raw1 ++ raw2 ++ w) := by
    rintro raw1 raw2 y h
    rw [h]
    simp
  cases ho with
  | helloWrite n _ _ _ h =>
    refine .inl ?_
    rw [nil (by simp), List.append_nil, h]
    exact (List.prefix_append_right_inj _).mpr (List.take_prefix _ _)
  | early _ _ _ h => exact .inl (full (by simp) h)
  | window0 _ _ _ _ _ h => exact .inl (full (by simp) h)
  | unsupported _ _ _ _ _ _ _ h => exact .inl (full (by simp) h)
  | noKey _ _ _ _ _ _ _ _ h => exact .inl (full (by simp) h)
  | window1 _ _ _ _ _ _ _ h => exact .inl (full (by simp) h)
  | badKey _ _ _ _ _ _ _ _ _ h => exact .inl (full (by simp) h)
  | replyWrite _ _ _ _ _ raw1 raw2 n _ hD _ h =>
    refine .inr (rep hD ?_)
    rw [nil (by simp), List.append_nil, h, List.append_nil]
    exact (List.prefix_append_right_inj _).mpr (List.take_prefix _ _)
  | noNewKeys _ _ _ _ _ _ _ _ _ hD h => exact .inr (rep hD (rep' h))
  | window2 _ _ _ _ _ _ _ _ hD h => exact .inr (rep hD (rep' h))
  | badNewKeys _ _ _ _ _ _ _ _ _ _ _ hD h => exact .inr (rep hD (rep' h))
  | otherMessage _ _ _ _ _ _ _ _ _ _ _ hD h => exact .inr (rep hD (rep' h))
  | done _ _ _ _ _ _ _ _ _ _ hD h => exact .inr (rep hD (rep' h))

theorem next_prefix {N : Nat} {w p r raw y p' pad : Bytes} (h : Spec.NextPacket N w p r) (hw : w <+: raw ++ y)
    (hp : Spec.PacketOf .b8 true p' pad raw) : p = p' ∧ r <+: y := by
  obtain ⟨raw', rfl, hf, -⟩ := h
  obtain ⟨z, hz⟩ := hw
  rw [List.append_assoc] at hz
  obtain ⟨h1, -, h3⟩ := framed_unique hf (packetOf_framed hp) hz
  exact ⟨h1, z, h3⟩

theorem next_ne_nil {N : Nat} {w p r : Bytes} (h : Spec.NextPacket N w p r) : w ≠ [] := by
  obtain ⟨raw, rfl, ⟨pad, hb, -⟩, -⟩ := h
  rw [hb]
  simp [Spec.u32]

/-! ### C113 -/

/-- C113: what a client of the server can read is the KEXINIT of the server and a reply with the host key and
the signature of the transcript of this connection, and of nothing else. -/
theorem C113_reply (cfg : Config) (hid : Spec.Fits cfg.ident) (ops : List Op) (i : Nat) (c : Conn) (s : IoSt)
    (as : List Client.Step) (hc : (run cfg ops).conns[i]? = some c) (ho : Spec.own i ops = some (s, as))
    (N : Nat) (w p0 w1 p w2 : Bytes) (hout : c.io.out = s.out ++ cfg.ident ++ Spec.crlf ++ w)
    (h0 : Spec.NextPacket N w p0 w1) (h1 : Spec.NextPacket N w1 p w2) :
    p0 = Spec.serverKexInit ∧ ∃ T e sig, Spec.Told cfg.K cfg.ident s T ∧ Spec.TranscriptBytes T e ∧
      Spec.P256Signature (cfg.K.sign (cfg.K.hash e)).1 (cfg.K.sign (cfg.K.hash e)).2 sig ∧
      p = Spec.replyBytes T.hostKey T.serverEphemeral sig := by
  obtain ⟨s', as', g1, g2⟩ := C65_output cfg hid ops hc
  rw [ho] at g1
  simp only [Option.some.injEq, Prod.mk.injEq] at g1
  obtain ⟨rfl, rfl⟩ := g1
  have hB : Begins cfg.K cfg.ident s c.io.out := by
    rcases g2 with ⟨-, g⟩ | ⟨-, g, -⟩ | ⟨cl, s1, t, x, r', g3, -, g, -⟩
    · rw [hout, List.append_assoc, List.append_assoc] at g
      have := List.append_right_eq_self.mp g
      simp [Spec.crlf] at this
    · have := handshake_begins cfg.K s hid [] (by simp)
      rwa [List.append_nil, ← g] at this
    · have := handshake_begins cfg.K s hid x (fun _ => ⟨cl, s1, g3⟩)
      rw [g3] at this
      rwa [g]
  obtain ⟨pad0, raw0, hp0, hB⟩ := hB
  have cut : ∀ {y : Bytes}, c.io.out <+: s.out ++ (cfg.ident ++ Spec.crlf ++ y) → w <+: y := by
    intro y hy
    rw [hout] at hy
    simpa [List.append_assoc, List.prefix_append_right_inj] using hy
  rcases hB with hB | ⟨T, e, sig, pad, raw1, y, k1, k2, k3, k4, hB⟩
  · have := cut hB
    rw [← List.append_nil raw0] at this
    obtain ⟨rfl, hr⟩ := next_prefix h0 this hp0
    exact absurd (List.prefix_nil.mp hr) (next_ne_nil h1)
  · rw [List.append_assoc] at hB
    obtain ⟨rfl, hr⟩ := next_prefix h0 (cut (by simpa using hB)) hp0
    obtain ⟨rfl, -⟩ := next_prefix h1 hr k4
    exact ⟨rfl, T, e, sig, k1, k2, k3, rfl⟩

theorem replyBytes_inj {a b c a' b' c' : Bytes} (e : Spec.replyBytes a b c = Spec.replyBytes a' b' c')
    (h : (Spec.replyBytes a b c).length < 2 ^ 32) : a = a' ∧ b = b' ∧ c = c' := by
  have h' := h
  rw [e] at h'
  unfold Spec.replyBytes at e h h'
  simp only [List.length_cons, List.length_append, str_length] at h h'
  simp only [List.cons.injEq, true_and, List.append_assoc] at e
  obtain ⟨rfl, e1⟩ := str_app_inj (by show a.length < _; omega) (by show a'.length < _; omega) e
  obtain ⟨rfl, e2⟩ := str_app_inj (by show b.length < _; omega) (by show b'.length < _; omega) e1
  rw [← List.append_nil (Spec.str c), ← List.append_nil (Spec.str c')] at e2
  exact ⟨rfl, rfl, (str_app_inj (by show c.length < _; omega) (by show c'.length < _; omega) e2).1⟩

/-- C113: the client knows whom it is connected to. `T'` is the transcript of some client, as it has seen it,
whoever has sent it the other part. It accepts a signature of its hash. If the signatures of the server cannot
be forged, and each is the signature of one hash only, then `T'` is the transcript of a connection of the
server, or the transcripts are a collision of the hash. If this connection becomes a session, then its keys are
those for `T'`. -/
theorem C113_client (cfg : Config) (hid : Spec.Fits cfg.ident) (ops : List Op) (accepted : Bytes → Bytes → Prop)
    (hforge : ∀ m sig, accepted m sig → Spec.HasSigned cfg ops m)
    (hone : ∀ m m' sig, m.length = 32 → m'.length = 32 → Spec.P256Signature (cfg.K.sign m).1 (cfg.K.sign m).2 sig →
      Spec.P256Signature (cfg.K.sign m').1 (cfg.K.sign m').2 sig → m = m')
    (T' : Spec.Transcript) (e' sig : Bytes) (hT : Spec.TranscriptFits T') (h32 : T'.secret.length = 32)
    (he : Spec.TranscriptBytes T' e') (hv : accepted (cfg.K.hash e') sig) :
    ∃ i s as, Spec.own i ops = some (s, as) ∧
      ((Spec.Told cfg.K cfg.ident s T' ∧ ∀ cl s1, Host.handleNewClient cfg.K cfg.ident s = (ok cl, s1) →
          Spec.Exchanged cfg.K cfg.ident s T' ∧ cl.sessionIdentifier = cfg.K.hash e' ∧
          Spec.Derived cfg.K.hash T'.secret (cfg.K.hash e') (Spec.keysOf cl.receiveCipher)
            (Spec.keysOf cl.sendCipher)) ∨
        ∃ T e, Spec.Told cfg.K cfg.ident s T ∧ Spec.TranscriptBytes T e ∧ e' ≠ e ∧
          cfg.K.hash e' = cfg.K.hash e) := by
  obtain ⟨i, c, s, as, w, p0, w1, hk, eph, sg, w2, h1, h2, h3, h4, h5, h6⟩ := hforge _ _ hv
  obtain ⟨-, T, e, sg', k1, k2, k3, k4⟩ := C113_reply cfg hid ops i c s as h1 h2 _ w p0 w1 _ w2 h3 h4 h5
  obtain ⟨-, -, rfl⟩ := replyBytes_inj k4 (Nat.lt_of_le_of_lt h5.length (by decide))
  have hh := hone _ _ _ (cfg.K.hash_length _) (cfg.K.hash_length _) h6 k3
  refine ⟨i, s, as, h2, ?_⟩
  by_cases hee : e' = e
  · subst hee
    obtain ⟨f, f32⟩ := k1.fits hid
    obtain rfl := C28_injective_32 T' T e' hT f h32 f32 he k2
    refine .inl ⟨k1, fun cl s1 hcl => ?_⟩
    obtain ⟨T2, e2, g1, -, -, g4, g5, g6⟩ := handshake_exchanged hid hcl
    obtain rfl := g1.told.unique k1
    obtain rfl := C28_functional _ _ _ g4 he
    exact ⟨g1, g5, g6⟩
  · exact .inr ⟨T, e, k1, k2, hee, hh⟩

/-- C113: the example server knows for whom it works. The owner of an honest key signs only requests in sessions
of their own, with the transcripts `T'` that they have seen, and their signatures cannot be forged. If the
server has a process, then its client has asked with some key; and if it is honest, then its owner has asked
for this, in a session with the transcript of this connection and therefore with its keys, or two transcripts
are a collision of the hash. -/
theorem C113_user {G : KeyGen} {E : Ed25519} {number : Bytes → Nat} {S : Sshd.Sys} {entropy : Nat → Byte}
    {bound : Bool} {cfg : Config} (hm : Sshd.main G E number S entropy bound = ok cfg) (honest : Bytes → Prop)
    (signs : (key : Bytes) → Spec.Transcript → (user service : Bytes) → Prop)
    (hforge : ∀ key m sig, honest key → Spec.ValidSignature E key m sig → ∃ T' e' user service,
      signs key T' user service ∧ Spec.TranscriptFits T' ∧ T'.secret.length = 32 ∧ Spec.TranscriptBytes T' e' ∧
      Spec.Fits user ∧ Spec.Fits service ∧ m = Spec.signData (cfg.K.hash e') user service (b! "ssh-ed25519")
        (Spec.tagged (b! "ssh-ed25519") key))
    (ops : List Op) (i : Nat) (c : Conn) (s : IoSt) (as : List Client.Step) (t : List Event)
    (hc : (run cfg ops).conns[i]? = some c) (ho : Spec.own i ops = some (s, as)) (ht : c.io.log = s.log ++ t)
    (pre post : List Event) (ev : ProcEvent) (h : t = pre ++ .proc ev :: post) :
    ∃ p user service key signature, .received p ∈ pre ∧
      Spec.Legal (Spec.request user service (.publicKeySigned (b! "ssh-ed25519")
        (Spec.tagged (b! "ssh-ed25519") key) (Spec.tagged (b! "ssh-ed25519") signature))) p ∧
      (honest key → ∃ T' e', signs key T' user service ∧ Spec.TranscriptBytes T' e' ∧
        ((Spec.Exchanged cfg.K cfg.ident s T' ∧ ∃ cl s1, Host.handleNewClient cfg.K cfg.ident s = (ok cl, s1) ∧
            Spec.Derived cfg.K.hash T'.secret (cfg.K.hash e') (Spec.keysOf cl.receiveCipher)
              (Spec.keysOf cl.sendCipher)) ∨
          ∃ T e, Spec.Exchanged cfg.K cfg.ident s T ∧ Spec.TranscriptBytes T e ∧ e' ≠ e ∧
            cfg.K.hash e' = cfg.K.hash e)) := by
  have hid := main_fits hm
  obtain rfl := main_ok hm
  obtain ⟨s', as', t', h1, h2, h3⟩ := C64_sshd _ E number S _ hid ops hc
  rw [ho] at h1
  simp only [Option.some.injEq, Prod.mk.injEq] at h1
  obtain ⟨rfl, rfl⟩ := h1
  obtain rfl := List.append_cancel_left (ht.symm.trans h2)
  obtain ⟨cl, s1, p, user, service, key, signature, g1, g2, g3, g4, -, -⟩ := h3 _ _ _ h
  refine ⟨p, user, service, key, signature, g2, g3, fun hh => ?_⟩
  obtain ⟨T', e', user', service', k1, k2, k3, k4, k5, k6, k7⟩ := hforge _ _ _ hh g4
  obtain ⟨T, e, q1, q2, q3, q4, q5, q6⟩ := handshake_exchanged hid g1
  obtain ⟨f1, f2, f3, f4, -⟩ := g3.fits
  have fit : ∀ x, Spec.Fits ((G.crypto (G.random (G.seed 0))).hash x) := by
    intro x
    rw [Spec.Fits, Crypto.hash_length]
    decide
  rw [q5] at k7
  obtain ⟨x0, rfl, rfl, -, -⟩ := C35_injective _ _ _ _ _ _ _ _ _ _ (fit _) f1 f2 f3 f4 (fit _) k5 k6 f3 f4 k7
  refine ⟨T', e', k1, k4, ?_⟩
  by_cases hee : e' = e
  · subst hee
    obtain rfl := C28_injective_32 T' T e' k2 q2 k3 q3 k4 q4
    exact .inl ⟨q1, cl, s1, g1, q6⟩
  · exact .inr ⟨T, e, q1, q4, hee, x0.symm⟩

/-- C113, for the whole session: if also packets cannot be forged, then everything that the server has received
from a client with an honest key was sent by the owner of this key, in this session and in this order. `sent` are
the packets that they have sealed in the session with a given transcript. So the programs that run for them are
those that they have asked for, with the input that they have sent. -/
theorem C113_channel {G : KeyGen} {E : Ed25519} {number : Bytes → Nat} {S : Sshd.Sys} {entropy : Nat → Byte}
    {bound : Bool} {cfg : Config} (hm : Sshd.main G E number S entropy bound = ok cfg) (honest : Bytes → Prop)
    (signs : (key : Bytes) → Spec.Transcript → (user service : Bytes) → Prop)
    (sent : Spec.Transcript → List (Bytes × Bytes × Bytes))
    (hsent : ∀ T, ∀ x ∈ sent T, Spec.PacketOf .b8 false x.1 x.2.1 x.2.2)
    (hforge : ∀ key m sig, honest key → Spec.ValidSignature E key m sig → ∃ T' e' user service,
      signs key T' user service ∧ Spec.TranscriptFits T' ∧ T'.secret.length = 32 ∧ Spec.TranscriptBytes T' e' ∧
      Spec.Fits user ∧ Spec.Fits service ∧ m = Spec.signData (cfg.K.hash e') user service (b! "ssh-ed25519")
        (Spec.tagged (b! "ssh-ed25519") key))
    (ops : List Op) (i : Nat) (c : Conn) (s : IoSt) (as : List Client.Step) (t : List Event)
    (hc : (run cfg ops).conns[i]? = some c) (ho : Spec.own i ops = some (s, as)) (ht : c.io.log = s.log ++ t)
    (hseal : ∀ T e key user service k k' cl s1, honest key → signs key T user service →
      Spec.TranscriptBytes T e → Spec.Derived cfg.K.hash T.secret (cfg.K.hash e) k k' →
      Host.handleNewClient cfg.K cfg.ident s = (ok cl, s1) →
      NoForgery cfg.K k 3 ((sent T).map (·.2.2)) s1.inp)
    (pre post : List Event) (ev : ProcEvent) (h : t = pre ++ .proc ev :: post) :
    ∃ p user service key signature, .received p ∈ pre ∧
      Spec.Legal (Spec.request user service (.publicKeySigned (b! "ssh-ed25519")
        (Spec.tagged (b! "ssh-ed25519") key) (Spec.tagged (b! "ssh-ed25519") signature))) p ∧
      (honest key → ∃ T' e', signs key T' user service ∧ Spec.TranscriptBytes T' e' ∧
        ((Spec.Exchanged cfg.K cfg.ident s T' ∧ Spec.payloads t <+: (sent T').map (·.1)) ∨
          ∃ T e, Spec.Exchanged cfg.K cfg.ident s T ∧ Spec.TranscriptBytes T e ∧ e' ≠ e ∧
            cfg.K.hash e' = cfg.K.hash e)) := by
  obtain ⟨p, user, service, key, signature, h1, h2, h3⟩ := C113_user hm honest signs hforge ops i c s as t hc ho ht
    pre post ev h
  refine ⟨p, user, service, key, signature, h1, h2, fun hh => ?_⟩
  obtain ⟨T', e', k1, k2, ⟨k3, cl, s1, k4, k5⟩ | k3⟩ := h3 hh
  · exact ⟨T', e', k1, k2, .inl ⟨k3, C70_integrity cfg (main_fits hm) ops _ hc ho ht k4 (hsent T')
      (hseal T' e' key user service _ _ cl s1 hh k1 k2 k5 k4)⟩⟩
  · exact ⟨T', e', k1, k2, .inr k3⟩

/-! ### examples -/

/-- a handshake that succeeds has signed the session identifier -/
theorem signed_of_handshake (cfg : Config) (hid : Spec.Fits cfg.ident) {s s1 : IoSt} {cl : HostClient}
    (h : Host.handleNewClient cfg.K cfg.ident s = (ok cl, s1)) :
    Spec.HasSigned cfg [.accept s, .poll 0 .message] cl.sessionIdentifier := by
  obtain ⟨id, pay, o, r1, secret, cp, r2, pad0, raw0, pad1, raw1, pad2, raw2, hp0, -, -, -, -, -, -, hp1, -, hout,
    hc⟩ := Host.success cfg.K hid h
  obtain ⟨sig, hsig, hrep⟩ := reply_eq cfg.K (cfg.K.dhPublic secret) (theHash cfg.K cfg.ident id pay secret cp)
  have hrl := replyPayload_length cfg.K (theHash cfg.K cfg.ident id pay secret cp) (cfg.K.dhPublic_length secret)
  rw [hrep] at hp1 hrl
  have small : ∀ {p pad raw : Bytes}, Spec.PacketOf .b8 true p pad raw → p.length ≤ 1000 →
      ∀ t, Spec.NextPacket 65536 (raw ++ t) p t := by
    intro p pad raw hp hl t
    refine ⟨raw, rfl, packetOf_framed hp, ?_⟩
    have := hp.maxPad
    rw [hp.bytes]
    len
  refine ⟨0, ⟨.service cl, s1⟩, s, [.message], raw0 ++ (raw1 ++ raw2), _, _, _, _, sig, raw2, ?_, rfl, ?_,
    small hp0 (by rw [kexPayload_length]; omega) _, small hp1 (by omega) _, ?_⟩
  · simp [run, State.step, Conn.poll, Phase.step, M.bind_run, M.mapErr_run, h]
  · rw [hout]
    simp
  · rw [hc]
    exact hsig

/-- a signature that shows the message -/
def openCrypto : Crypto :=
  { Crypto.flat with
    sign := fun m => ((m ++ List.replicate 32 0).take 32, List.replicate 32 0)
    sign_length := by intro m; simp }

theorem openCrypto_one (m m' sig : Bytes) (hl : m.length = 32) (hl' : m'.length = 32)
    (h : Spec.P256Signature (openCrypto.sign m).1 (openCrypto.sign m).2 sig)
    (h' : Spec.P256Signature (openCrypto.sign m').1 (openCrypto.sign m').2 sig) : m = m' := by
  have hs : ∀ x : Bytes, x.length = 32 → (openCrypto.sign x).1 = x := by
    intro x hx
    show (x ++ List.replicate 32 0).take 32 = x
    rw [List.take_append_of_le_length (by omega), List.take_of_length_le (by omega)]
  rw [hs m hl] at h
  rw [hs m' hl'] at h'
  obtain ⟨a, b, ha, -, rfl⟩ := h
  obtain ⟨a', b', ha', -, e⟩ := h'
  obtain rfl := mpintBody_unique ha (mpBody_spec m)
  obtain rfl := mpintBody_unique ha' (mpBody_spec m')
  have hb : ∀ x : Bytes, x.length = 32 → (mpBody x).length < 2 ^ 32 := by
    intro x hx
    have := mpBody_length x
    omega
  have e1 := List.append_cancel_left e
  unfold Spec.str at e1
  have e2 := (List.append_inj e1 (by simp [Spec.u32])).2
  obtain ⟨e3, -⟩ := str_app_inj (hb m hl) (hb m' hl') e2
  refine beVal_inj (by omega) ?_
  rw [← (mpBody_spec m).1, ← (mpBody_spec m').1, e3]

/-- The premises of `C113_client`: a server has signed, and each signature is for one hash. -/
example : ∃ cfg ops m, Spec.HasSigned cfg ops m ∧ ∀ m m' sig, m.length = 32 → m'.length = 32 →
    Spec.P256Signature (cfg.K.sign m).1 (cfg.K.sign m).2 sig →
    Spec.P256Signature (cfg.K.sign m').1 (cfg.K.sign m').2 sig → m = m' := by
  obtain ⟨c, s1, h, -⟩ := C32_agreement_partial openCrypto (b! "SSH-2.0-nora") (clientState [] []) (b! "c") _ [5] _
    (conversation 3 [] ++ []) plainKexInit
    (by
      intro a b
      show List.replicate 32 (a.getD 0 0 + b.getD 0 0) = List.replicate 32 (b.getD 0 0 + a.getD 0 0)
      rw [UInt8.add_comm])
    (by decide) rfl (start_client false _) ⟨_, _, _, _, guess_negotiation false⟩
    ⟨_, zpkt_next _ (by decide), _, zpkt_next _ (by decide), rfl⟩
  exact ⟨{ wholeConfig with K := openCrypto, ident := b! "SSH-2.0-nora" }, _, _,
    signed_of_handshake { wholeConfig with K := openCrypto, ident := b! "SSH-2.0-nora" } (by decide) h, openCrypto_one⟩

/-- what the client of `sshdRequest` signs -/
def rootMessage : Bytes :=
  Spec.signData (List.replicate 32 7) (b! "root") (b! "ssh-connection") (b! "ssh-ed25519")
    (Spec.tagged (b! "ssh-ed25519") (List.replicate 32 1))

/-- nobody has signed anything else -/
def oneEd25519 : Ed25519 :=
  { someEd25519 with verify := fun k m s => decide (m = rootMessage) && someEd25519.verify k m s }

/-- the example server with it -/
def oneConfig : Config :=
  ⟨.flat, Sshd.handlers oneEd25519 List.length, Sshd.connHandlers someSys, b! "SSH-2.0-nora_ssh example"⟩

theorem oneConfig_main : Sshd.main flatKeyGen oneEd25519 List.length someSys (fun _ => 0) true = ok oneConfig := rfl

theorem one_entered :
    ∃ m, Spec.Entered oneConfig (clientState copyPayloads []).rng (clientState copyPayloads []).inp
      [] 4 rootLog flatKeys 5 m ∧
      Spec.Arrive .flat flatKeys 5 (demoP0 :: Spec.encode (.channel (.request scpExec)) ::
        (demoHdrs ++ demoBody).map (·.1)) m [] := by
  obtain ⟨c, s1, h1, h2, h3, h4⟩ := main_session copyPayloads []
  obtain ⟨a, g1, g2⟩ := handshake_shakes (cfg := oneConfig) (by decide) rfl h1
  obtain ⟨m, f1, f2⟩ := Spec.Arrive.append
    (a := [Spec.encode (.serviceRequest ⟨b! "ssh-userauth"⟩), sshdRequest])
    (b := demoP0 :: Spec.encode (.channel (.request scpExec)) :: (demoHdrs ++ demoBody).map (·.1))
    (conversation_stream [] copyPayloads 3 (by decide +kernel))
  rw [← h4] at f1
  rw [h2, h3] at g2
  refine ⟨m, .mk (t := rootLog) g1 g2 ?_ f1, f2⟩
  refine .served (t := []) (legal_encode (show Spec.Fits (b! "ssh-userauth") by decide)) .nil
    (.accepted (.mk (.publicKey (legal_encode ⟨by decide, by decide, by decide, by decide, by decide +kernel⟩)
      (by decide +kernel)) ?_))
  simp only [oneConfig, Sshd.handlers]
  rw [C92_anyone _ _ _ _ _ _ (Utf8.valid_iff.mp (by decide +kernel))
    ⟨by decide +kernel, by decide +kernel, by decide +kernel⟩]
  rfl

/-- what the server reads after the handshake with this client -/
def copyInput : Bytes := conversation 3 copyPayloads ++ []

/-- where the tags are, and how much is before each that is covered by it -/
def copyTags : List (Nat × Nat) := [(28, 28), (256, 212), (308, 36), (368, 44), (412, 28), (464, 36), (508, 28), (552, 28)]

theorem copy_marks : ∀ q : Fin 568, (copyInput.drop q).take 4 = b! "poly" →
    ∃ x ∈ copyTags, x.1 = q.val ∧ (copyInput.drop (q + 4)).take 4 = Spec.u32 x.2 := by
  decide +kernel

theorem copy_tags : ∀ x ∈ copyTags, ∀ i : Fin 9,
    Spec.mac .flat flatKeys (3 + i) ((copyInput.drop (x.1 - x.2)).take x.2) = (copyInput.drop x.1).take 16 →
    (copyPayloads[i.val]?).any (fun p => (copyInput.drop (x.1 - x.2)).take x.2 ==
      Spec.sealLength .flat flatKeys (3 + i) ((spkt p).take 4) ++
        Spec.sealBody .flat flatKeys (3 + i) ((spkt p).drop 4)) = true := by
  decide +kernel

/-- no packet is forged in this input -/
theorem copy_noForgery : NoForgery .flat flatKeys 3 (copyPayloads.map spkt) copyInput := by
  intro pre cov post i hi h
  have hl := congrArg List.length h
  rw [show copyInput.length = 568 by decide +kernel] at hl
  simp only [List.length_append, mac_length] at hl
  have hcov : cov = (copyInput.drop pre.length).take cov.length := by rw [h]; simp
  have htag : Spec.mac .flat flatKeys (3 + i) cov = (copyInput.drop (pre.length + cov.length)).take 16 := by
    rw [h, List.append_assoc, ← List.length_append, List.drop_left, List.take_append_of_le_length
      (by simp), List.take_of_length_le (by simp)]
  have hmac : Spec.mac .flat flatKeys (3 + i) cov = b! "poly" ++ (Spec.u32 cov.length ++
      Spec.u64 ((Spec.macKey .flat flatKeys (3 + i) ++ cov).foldl
        (fun a b => (a * 257 + b.toNat + 1) % 2 ^ 64) 0)) := by
    show markedTag _ _ = _
    rw [markedTag, List.append_assoc]
  obtain ⟨x, hx, h1, h2⟩ := copy_marks ⟨pre.length + cov.length, by omega⟩ (by
    have := congrArg (List.take 4) (htag.symm.trans hmac)
    rw [List.take_take] at this
    exact this)
  simp only at h1 h2
  have h3 : Spec.u32 cov.length = Spec.u32 x.2 := by
    rw [← h2]
    have := congrArg (fun l => (l.drop 4).take 4) (htag.symm.trans hmac)
    simp only [List.drop_take, List.take_take, List.drop_drop] at this
    exact this.symm
  have hx2 : ∀ x ∈ copyTags, x.2 < 300 := by decide
  have h4 := u32_inj (by omega) (by have := hx2 x hx; omega) h3
  have h5 := copy_tags x hx ⟨i, by simp at hi; exact Nat.lt_succ_of_le hi⟩
  rw [show x.1 - x.2 = pre.length by omega, ← h4, h1, ← hcov] at h5
  replace h5 := h5 htag
  simp only at h5
  cases h6 : copyPayloads[i]? with
  | none => rw [h6] at h5; cases h5
  | some p =>
    rw [h6] at h5
    exact ⟨spkt p, by rw [List.getElem?_map, h6]; rfl, beq_iff_eq.mp h5⟩

/-- the packets of the client -/
def copySent : List (Bytes × Bytes × Bytes) :=
  copyPayloads.map fun p => (p, List.replicate (4 + (8 - (p.length + 5) % 8) % 8) 0, spkt p)

theorem copySent_packets : ∀ x ∈ copySent, Spec.PacketOf .b8 false x.1 x.2.1 x.2.2 := by
  intro x hx
  obtain ⟨p, hp, rfl⟩ := List.mem_map.mp hx
  have : ∀ p ∈ copyPayloads, Spec.PacketOf .b8 false p
      (List.replicate (4 + (8 - (p.length + 5) % 8) % 8) 0) (spkt p) := by
    intro p hp
    have : p.length ≤ 30000 := by revert p; decide +kernel
    refine ⟨?_, ?_, ?_, ?_, ?_⟩
    · rw [List.length_replicate]; rfl
    all_goals first
      | (rw [List.length_replicate]; omega)
      | (rw [List.length_replicate]; show (0 + (1 + p.length + _)) % 8 = 0; omega)
  exact this p hp

theorem flat_derived {secret h : Bytes} {k k' : Spec.Keys}
    (hk : Spec.Derived oneConfig.K.hash secret h k k') : k = flatKeys := by
  obtain ⟨_, -, h1, h2, -⟩ := hk
  cases k
  simp only at h1 h2
  rw [h1, h2]
  simp [Spec.keyBlock, flatKeys, oneConfig, Crypto.flat]

/-- The premises of `C113_user` and of `C113_channel`: the owner of the key 1, 1, … has signed once, in the session that they have, and
the server has started a process for them. -/
example : ∃ (signs : Bytes → Spec.Transcript → Bytes → Bytes → Prop) (ops : List Op) (c : Conn) (as : List Client.Step)
      (pre post : List Event) (ev : ProcEvent),
    (∀ key m sig, key = List.replicate 32 1 → Spec.ValidSignature oneEd25519 key m sig → ∃ T' e' user service,
      signs key T' user service ∧ Spec.TranscriptFits T' ∧ T'.secret.length = 32 ∧ Spec.TranscriptBytes T' e' ∧
      Spec.Fits user ∧ Spec.Fits service ∧ m = Spec.signData (oneConfig.K.hash e') user service (b! "ssh-ed25519")
        (Spec.tagged (b! "ssh-ed25519") key)) ∧
    (∀ key T user service, signs key T user service →
      Spec.Exchanged .flat (b! "SSH-2.0-nora_ssh example") (clientState copyPayloads []) T) ∧
    (∀ x ∈ copySent, Spec.PacketOf .b8 false x.1 x.2.1 x.2.2) ∧
    (∀ T e key user service k k' cl s1, key = List.replicate 32 1 → signs key T user service →
      Spec.TranscriptBytes T e → Spec.Derived oneConfig.K.hash T.secret (oneConfig.K.hash e) k k' →
      Host.handleNewClient oneConfig.K oneConfig.ident (clientState copyPayloads []) = (ok cl, s1) →
      NoForgery oneConfig.K k 3 (copySent.map (·.2.2)) s1.inp) ∧
    (run oneConfig ops).conns[0]? = some c ∧ Spec.own 0 ops = some (clientState copyPayloads [], as) ∧
    c.io.log = pre ++ .proc ev :: post := by
  obtain ⟨c, s1, hc, -, -, hin⟩ := main_session copyPayloads []
  obtain ⟨T, e, q1, q2, q3, q4, -, -⟩ := handshake_exchanged (by decide) hc
  obtain ⟨m, h1, h2⟩ := one_entered
  obtain ⟨evs, e1, -, e2, e3, as, st, s', -, e4, -, ⟨ops, e5, e6⟩, e7⟩ := C109_copied oneConfig_main
    (clientState copyPayloads []) rfl (by decide +kernel) h1 (hdrs := demoHdrs) (body := demoBody) (o := demoOpen)
    (r := scpExec) (command := b! "scp -t notes") (prog := b! "scp") (path := b! "notes") (mode := b! "0644")
    (ds := b! "5") (name := b! "notes") (content := b! "hello") h2
    (legal_encode demoOpen_wf) (legal_encode (show Spec.Fits _ by decide)) rfl ⟨1, by decide, .exec (by decide)⟩
    (words_iff.mp (by decide +kernel)) (by decide)
    (by
      intro x hx
      simp only [demoHdrs, demoBody, List.cons_append, List.nil_append, List.mem_cons, List.not_mem_nil, or_false] at hx
      rcases hx with rfl | rfl | rfl | rfl <;> exact legal_encode (by show Spec.Fits _; decide))
    rfl rfl (by unfold Spec.Plain; decide) (by unfold Spec.Plain; decide) (by unfold Spec.Decimal; decide) (by decide)
    (Utf8.valid_iff.mp (by decide +kernel))
    (Utf8.valid_iff.mp (by decide +kernel)) rfl (fun _ _ => rfl) scpOs scpOs_works (by unfold Spec.Few; decide +kernel)
  refine ⟨fun _ T _ _ => Spec.Exchanged .flat (b! "SSH-2.0-nora_ssh example") (clientState copyPayloads []) T, ops, _,
    as, _, _, _, ?_, fun _ _ _ _ h => h, copySent_packets, ?_, e7 ops 0 e5 e6, e6, e4.trans (show _ = (rootLog ++
    [.received demoP0, .sent (Spec.encode (Spec.confirm 0 demoOpen)),
     .received (Spec.encode (.channel (.request scpExec)))]) ++ _ :: _ from rfl)⟩
  · rintro key m sig rfl hv
    have hm : m = rootMessage := by
      have := hv.2.2
      simp only [oneEd25519, Bool.and_eq_true, decide_eq_true_eq] at this
      exact this.1
    exact ⟨T, e, b! "root", b! "ssh-connection", q1, q2, q3, q4, by decide, by decide, hm⟩
  · intro _ _ _ _ _ k k' cl s2 _ _ _ hk h2
    obtain ⟨-, rfl⟩ := Prod.mk.inj (hc.symm.trans h2)
    obtain rfl : k = flatKeys := flat_derived hk
    rw [hin, copySent, List.map_map]
    exact copy_noForgery

end Nora
