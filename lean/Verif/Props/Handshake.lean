import Verif.Lemmas.Handshake
import Verif.Props.IdentExact
/-
Properties of the handshake: C27, C30, C31, C32, C33. The specification is in
Verif/Spec/Handshake.lean, Verif/Spec/Kex.lean and Verif/Spec/Packet.lean.

65536 is the size of the packet buffer (host.rs:106).
-/
namespace Nora
open R

/-! ### from the specification to the stages and back -/

theorem Reached.sent {N : Nat} {s : IoSt} {id pay r : Bytes} {o : Kex.KexInit}
    (h : Reached N s id pay o r) : Spec.KexInitSent N s.inp id pay o r := by
  obtain ⟨⟨r0, e, hn⟩, hk⟩ := h
  obtain ⟨hi, q, k, hq, hs⟩ := C21_sound _ _ _ e
  obtain ⟨hw, hx⟩ := (Message.parse_iff rfl).mp hk
  exact ⟨hi, hw, hx, q, k, r0, hq, hs, hn⟩

theorem Reached.start {N : Nat} {s : IoSt} {text pay r : Bytes} {o : Kex.KexInit}
    (h : Spec.ClientStart N s.inp text pay o r) : Reached N s (b! "SSH-2.0-" ++ text) pay o r := by
  obtain ⟨h1, h2, h3, h4, r0, h5, h6⟩ := h
  refine ⟨⟨r0, ?_, h6⟩, (Message.parse_iff rfl).mpr ⟨h3, h4⟩⟩
  rw [h5, C19_parse text r0 h1, if_pos h2]

theorem GoodKey.iff {pay cp : Bytes} :
    GoodKey pay cp ↔ cp.length = 32 ∧ pay = Spec.encode (.kexEcdhInit ⟨cp⟩) := by
  rw [GoodKey, Message.parse_iff rfl]
  constructor
  · rintro ⟨⟨h, t, ht, e⟩, hl⟩
    exact ⟨hl, e⟩
  · rintro ⟨hl, e⟩
    exact ⟨⟨by show Spec.Fits cp; unfold Spec.Fits; omega, 1, by decide, e⟩, hl⟩

theorem newKeys_iff {pay : Bytes} : Message.parse pay = ok .newKeys ↔ pay = [21] := by
  rw [Message.parse_iff rfl]
  constructor
  · rintro ⟨_, t, _, e⟩; exact e
  · rintro rfl; exact ⟨trivial, 1, by decide, rfl⟩

theorem serverLists : Spec.NameListOf [b! "curve25519-sha256"] Host.kexInit.kexAlgorithms.str ∧
    Spec.NameListOf [b! "ecdsa-sha2-nistp256"] Host.kexInit.serverHostKeyAlgorithms.str ∧
    Spec.NameListOf [b! "chacha20-poly1305@openssh.com"]
      Host.kexInit.encryptionAlgorithmsClientToServer.str ∧
    Spec.NameListOf [b! "chacha20-poly1305@openssh.com"]
      Host.kexInit.encryptionAlgorithmsServerToClient.str := by
  refine ⟨⟨?_, rfl⟩, ⟨?_, rfl⟩, ⟨?_, rfl⟩, ⟨?_, rfl⟩⟩ <;>
  · intro n hn
    rw [List.mem_singleton.mp hn]
    decide

/-- the negotiated algorithms are the ones that are implemented -/
theorem negotiation_names {o : Kex.KexInit} {a b c d : Bytes}
    (h : Spec.Negotiation o Host.kexInit a b c d) :
    Negotiated o ∧ a = b! "curve25519-sha256" ∧ b = b! "ecdsa-sha2-nistp256" ∧
      c = b! "chacha20-poly1305@openssh.com" ∧ d = b! "chacha20-poly1305@openssh.com" := by
  obtain ⟨s1, s2, s3, s4⟩ := serverLists
  obtain ⟨⟨a1, a2, ha, ha', na⟩, ⟨b1, b2, hb, hb', nb⟩, ⟨c1, c2, hc, hc', nc⟩,
    ⟨d1, d2, hd, hd', nd⟩⟩ := h
  rw [nameListOf_unique ha' s1] at na
  rw [nameListOf_unique hb' s2] at nb
  rw [nameListOf_unique hc' s3] at nc
  rw [nameListOf_unique hd' s4] at nd
  have e1 := (negotiate_single na).1
  have e2 := (negotiate_single nb).1
  have e3 := (negotiate_single nc).1
  have e4 := (negotiate_single nd).1
  subst e1 e2 e3 e4
  exact ⟨⟨a1, b1, c1, d1, ha, hb, hc, hd, na, nb, nc, nd⟩, rfl, rfl, rfl, rfl⟩

theorem negotiated_iff {o : Kex.KexInit} :
    Negotiated o ↔ ∃ a b c d, Spec.Negotiation o Host.kexInit a b c d := by
  constructor
  · rintro ⟨a, b, c, d, ha, hb, hc, hd, na, nb, nc, nd⟩
    obtain ⟨s1, s2, s3, s4⟩ := serverLists
    exact ⟨_, _, _, _, ⟨a, _, ha, s1, na⟩, ⟨b, _, hb, s2, nb⟩, ⟨c, _, hc, s3, nc⟩,
      ⟨d, _, hd, s4, nd⟩⟩
  · rintro ⟨a, b, c, d, h⟩
    exact (negotiation_names h).1

/-- the outcome of `handle_new_client` -/
theorem Host.outcome_pad (K : Crypto) {ident : Bytes} (s : IoSt) (hid : Spec.Fits ident) :
    ∃ (k0 : Nat) (raw0 : Bytes), Spec.LeastPad .b8 true kexPayload.length k0 ∧
      Spec.PacketOf .b8 true kexPayload (s.rng.bytes k0) raw0 ∧
      Outcome K 65536 ident (ident ++ Spec.crlf ++ raw0) s
        (Host.handleNewClient K ident s).1 (Host.handleNewClient K ident s).2 := by
  have hl : (List.replicate (1 <<< 16) (0 : Byte)).length = 65536 := by
    rw [List.length_replicate]; rfl
  have := Host.handshake_outcome K (ident := ident) (s := s)
    (pktBuf := List.replicate (1 <<< 16) 0) hid (by omega) (by omega)
  rw [hl] at this
  exact this

theorem Host.outcome (K : Crypto) {ident : Bytes} (s : IoSt) (hid : Spec.Fits ident) :
    ∃ (pad raw0 : Bytes), Spec.PacketOf .b8 true kexPayload pad raw0 ∧
      Outcome K 65536 ident (ident ++ Spec.crlf ++ raw0) s
        (Host.handleNewClient K ident s).1 (Host.handleNewClient K ident s).2 := by
  obtain ⟨k0, raw0, _, h⟩ := Host.outcome_pad K s hid
  exact ⟨_, raw0, h⟩

/-! ### C27 the session identifier -/

/-- the transcript of a handshake -/
def transcriptOf (K : Crypto) (ident id pay secret cp : Bytes) : Spec.Transcript where
  clientId := id
  serverId := ident
  clientKexInit := pay
  serverKexInit := kexPayload
  hostKey := Spec.p256Key K.hostPoint
  clientEphemeral := cp
  serverEphemeral := K.dhPublic secret
  secret := K.dhShared secret cp

theorem theHash_eq (K : Crypto) (ident id pay secret cp : Bytes) :
    theHash K ident id pay secret cp =
      K.hash (transcript (transcriptOf K ident id pay secret cp)) := rfl

theorem reply_eq (K : Crypto) (sp hash : Bytes) :
    ∃ sig, Spec.P256Signature (K.sign hash).1 (K.sign hash).2 sig ∧
      replyPayload K sp hash = Spec.replyBytes (Spec.p256Key K.hostPoint) sp sig :=
  ⟨_, ⟨_, _, mpBody_spec _, mpBody_spec _, rfl⟩, rfl⟩

/-- everything about a successful handshake -/
theorem Host.success (K : Crypto) {ident : Bytes} {s s' : IoSt} {c : HostClient}
    (hid : Spec.Fits ident) (h : Host.handleNewClient K ident s = (ok c, s')) :
    ∃ id pay o r1 secret cp r2 pad0 raw0 pad1 raw1 pad2 raw2,
      Spec.PacketOf .b8 true kexPayload pad0 raw0 ∧
      Reached 65536 s id pay o r1 ∧ Negotiated o ∧ cp.length = 32 ∧
      Spec.NextPacket 65536 r1 (Spec.encode (.kexEcdhInit ⟨cp⟩)) r2 ∧
      Spec.NextPacket 65536 r2 [21] s'.inp ∧
      (∃ k, Spec.LeastPad .b8 true kexPayload.length k ∧ secret = (s.rng.skip k).bytes 32) ∧
      Spec.PacketOf .b8 true
        (replyPayload K (K.dhPublic secret) (theHash K ident id pay secret cp)) pad1 raw1 ∧
      Spec.PacketOf .b8 true [21] pad2 raw2 ∧
      s'.out = s.out ++ (ident ++ Spec.crlf ++ raw0 ++ raw1 ++ raw2) ∧
      c = sessionOf K (K.dhShared secret cp) (theHash K ident id pay secret cp) := by
  obtain ⟨pad0, raw0, hp0, ho⟩ := Host.outcome K s hid
  rw [h] at ho
  cases ho with
  | done id pay secret cp r2 raw1 raw2 pay3 r3 _ hD hout hn3 hm3 hinp =>
    obtain ⟨⟨o, r1, pay2, hR, hN, hn2, hg⟩, hk, ⟨pad1, hp1⟩, ⟨pad2, hp2⟩⟩ := hD
    rw [newKeys_iff] at hm3
    rw [GoodKey.iff] at hg
    obtain ⟨hl, rfl⟩ := hg
    subst hm3
    simp only at hinp hout
    subst hinp
    exact ⟨id, pay, o, r1, secret, cp, r2, pad0, raw0, pad1, raw1, pad2, raw2, hp0, hR, hN, hl, hn2,
      hn3, hk, hp1, hp2, by rw [hout]; simp, rfl⟩

/-- C27: after a successful handshake, the session identifier is the hash of the transcript, and
each item of the transcript is what went over the wire: the identification strings, the payloads of
the two KEXINIT packets, the host key and the server's ephemeral key in the reply, the client's
ephemeral key in its ECDH_INIT, and the secret the two ephemeral keys share. The reply is signed
over the same hash. -/
theorem C27_session (K : Crypto) (ident : Bytes) (s s' : IoSt) (c : HostClient)
    (hid : Spec.Fits ident) (h : Host.handleNewClient K ident s = (ok c, s')) :
    ∃ t e o r1 r2 secret pad0 raw0 pad1 raw1 pad2 raw2 sig,
      Spec.TranscriptBytes t e ∧ c.sessionIdentifier = K.hash e ∧
      Spec.KexInitSent 65536 s.inp t.clientId t.clientKexInit o r1 ∧
      Spec.NextPacket 65536 r1 (Spec.encode (.kexEcdhInit ⟨t.clientEphemeral⟩)) r2 ∧
      Spec.NextPacket 65536 r2 (Spec.encode .newKeys) s'.inp ∧
      Spec.PacketOf .b8 true t.serverKexInit pad0 raw0 ∧
      Spec.PacketOf .b8 true (Spec.replyBytes t.hostKey t.serverEphemeral sig) pad1 raw1 ∧
      Spec.PacketOf .b8 true (Spec.encode .newKeys) pad2 raw2 ∧
      s'.out = s.out ++ (t.serverId ++ Spec.crlf ++ raw0 ++ raw1 ++ raw2) ∧
      t.serverId = ident ∧ t.hostKey = Spec.p256Key K.hostPoint ∧
      (∃ k, Spec.LeastPad .b8 true t.serverKexInit.length k ∧ secret = (s.rng.skip k).bytes 32) ∧
      t.serverEphemeral = K.dhPublic secret ∧ t.secret = K.dhShared secret t.clientEphemeral ∧
      Spec.P256Signature (K.sign (K.hash e)).1 (K.sign (K.hash e)).2 sig := by
  obtain ⟨id, pay, o, r1, secret, cp, r2, pad0, raw0, pad1, raw1, pad2, raw2, hp0, hR, hN, hl, hn2,
    hn3, hk, hp1, hp2, hout, hc⟩ := Host.success K hid h
  obtain ⟨sig, hsig, hrep⟩ := reply_eq K (K.dhPublic secret) (theHash K ident id pay secret cp)
  rw [hrep] at hp1
  exact ⟨transcriptOf K ident id pay secret cp, _, o, r1, r2, secret, pad0, raw0, pad1, raw1, pad2,
    raw2, sig, transcript_spec _, by rw [hc]; rfl, hR.sent, hn2, hn3, hp0, hp1, hp2, hout, rfl, rfl,
    hk, rfl, rfl, hsig⟩

/-! ### C30 negotiation -/

/-- the KEXINIT of the server, in bytes -/
theorem C30_kexInit : Spec.encode (.kexInit Host.kexInit) = Spec.serverKexInit := by decide +kernel

/-- C30: the four lists decide whether the client is turned away; the server's lists are those of
the KEXINIT it has sent. -/
theorem C30_negotiation (K : Crypto) (ident : Bytes) (s : IoSt) (text pay r : Bytes)
    (o : Kex.KexInit) (hid : Spec.Fits ident) (hw : s.wcap = none)
    (hc : Spec.ClientStart 65536 s.inp text pay o r) :
    ∃ (so : Kex.KexInit) (pad raw : Bytes), Spec.WF (.kexInit so) ∧
      Spec.PacketOf .b8 true (Spec.encode (.kexInit so)) pad raw ∧
      s.out ++ (ident ++ Spec.crlf ++ raw) <+: (Host.handleNewClient K ident s).2.out ∧
      ((Host.handleNewClient K ident s).1 = err .unsupportedAlgorithms ↔
        ¬ ∃ kex hostKey toServer toClient, Spec.Negotiation o so kex hostKey toServer toClient) := by
  obtain ⟨pad, raw, hp, ho⟩ := Host.outcome K s hid
  have hR := Reached.start hc
  refine ⟨Host.kexInit, pad, raw, Host.kexInit_WF, hp, ?_, ?_⟩
  · revert ho
    generalize (Host.handleNewClient K ident s).1 = res
    generalize (Host.handleNewClient K ident s).2 = s'
    intro ho
    cases ho <;> simp_all [List.prefix_append, List.prefix_append_right_inj]
  · rw [← negotiated_iff]
    rcases ho.reached hw (by omega) hR with ⟨h1, h2, _⟩ | ⟨h1, h2⟩
    · simp [h1, h2]
    · simp [h1, h2]

/-- C30: what is negotiated is what is implemented -/
theorem C30_algorithms (o : Kex.KexInit) (kex hostKey toServer toClient : Bytes)
    (h : Spec.Negotiation o Host.kexInit kex hostKey toServer toClient) :
    kex = b! "curve25519-sha256" ∧ hostKey = b! "ecdsa-sha2-nistp256" ∧
      toServer = b! "chacha20-poly1305@openssh.com" ∧
      toClient = b! "chacha20-poly1305@openssh.com" :=
  (negotiation_names h).2

/-- C30: a client whose algorithms are accepted, and whose ECDH_INIT has a key of the right length,
gets the reply, which has a host key and a signature of the negotiated type. -/
theorem C30_proceeds (K : Crypto) (ident : Bytes) (s : IoSt) (text pay r r2 cp : Bytes)
    (o : Kex.KexInit) (kex hostKey toServer toClient : Bytes)
    (hid : Spec.Fits ident) (hw : s.wcap = none)
    (hc : Spec.ClientStart 65536 s.inp text pay o r)
    (hneg : Spec.Negotiation o Host.kexInit kex hostKey toServer toClient)
    (hcp : cp.length = 32) (hk : Spec.NextPacket 65536 r (Spec.encode (.kexEcdhInit ⟨cp⟩)) r2) :
    ∃ pad0 raw0 pad1 raw1 pad2 raw2 point serverEphemeral sig,
      Spec.PacketOf .b8 true (Spec.encode (.kexInit Host.kexInit)) pad0 raw0 ∧
      Spec.PacketOf .b8 true (Spec.replyBytes
        (Spec.str hostKey ++ Spec.str (b! "nistp256") ++ Spec.str point) serverEphemeral
        (Spec.str hostKey ++ Spec.str sig)) pad1 raw1 ∧
      Spec.PacketOf .b8 true (Spec.encode .newKeys) pad2 raw2 ∧
      (Host.handleNewClient K ident s).2.out =
        s.out ++ (ident ++ Spec.crlf ++ raw0 ++ raw1 ++ raw2) := by
  obtain ⟨pad, raw, hp, ho⟩ := Host.outcome K s hid
  obtain ⟨hN, _, rfl, _⟩ := negotiation_names hneg
  obtain ⟨secret, raw1, raw2, hD, hout, _⟩ :=
    ho.keyed hw (by omega) (Reached.start hc) hN hk (GoodKey.iff.mpr ⟨hcp, rfl⟩)
  obtain ⟨pad1, hp1⟩ := hD.reply
  obtain ⟨pad2, hp2⟩ := hD.newKeys
  exact ⟨pad, raw, pad1, raw1, pad2, raw2, K.hostPoint, K.dhPublic secret, _, hp, hp1, hp2,
    by rw [hout]; simp⟩

/-- the literals of the server's KEXINIT are name-lists, so none of the `try_into().unwrap()`s of
host.rs:123-135 fails -/
example : (NameList.tryFrom Host.kexInit.kexAlgorithms.str,
    NameList.tryFrom Host.kexInit.serverHostKeyAlgorithms.str,
    NameList.tryFrom Host.kexInit.encryptionAlgorithmsClientToServer.str,
    NameList.tryFrom (b! "none"), NameList.tryFrom []) =
    (ok Host.kexInit.kexAlgorithms, ok Host.kexInit.serverHostKeyAlgorithms,
     ok Host.kexInit.encryptionAlgorithmsClientToServer, ok ⟨b! "none"⟩, ok ⟨[]⟩) := by
  decide +kernel

/-! ### C31 output and success -/

/-- C31: the output of the server, whatever the client sends and whenever a write fails, is a prefix
of identification line, KEXINIT, ECDH reply, NEWKEYS; and if it goes beyond the KEXINIT then the
client has sent a KEXINIT with acceptable algorithms and a key of 32 bytes. -/
theorem C31_output (K : Crypto) (ident : Bytes) (s : IoSt) (hid : Spec.Fits ident) :
    ∃ pad0 raw0, Spec.PacketOf .b8 true (Spec.encode (.kexInit Host.kexInit)) pad0 raw0 ∧
      ((∃ n, (Host.handleNewClient K ident s).2.out =
          s.out ++ (ident ++ Spec.crlf ++ raw0).take n) ∨
       (∃ id pay o r1 cp r2 serverEphemeral sig pad1 raw1 pad2 raw2 n,
          Spec.KexInitSent 65536 s.inp id pay o r1 ∧
          (∃ a b c d, Spec.Negotiation o Host.kexInit a b c d) ∧
          Spec.NextPacket 65536 r1 (Spec.encode (.kexEcdhInit ⟨cp⟩)) r2 ∧ cp.length = 32 ∧
          Spec.PacketOf .b8 true
            (Spec.replyBytes (Spec.p256Key K.hostPoint) serverEphemeral sig) pad1 raw1 ∧
          Spec.PacketOf .b8 true (Spec.encode .newKeys) pad2 raw2 ∧
          (Host.handleNewClient K ident s).2.out =
            s.out ++ (ident ++ Spec.crlf ++ raw0 ++ (raw1 ++ raw2).take n))) := by
  obtain ⟨pad, raw, hp, ho⟩ := Host.outcome K s hid
  refine ⟨pad, raw, hp, ?_⟩
  have full : ∀ x : Bytes, x = s.out ++ (ident ++ Spec.crlf ++ raw) →
      ∃ n, x = s.out ++ (ident ++ Spec.crlf ++ raw).take n := by
    rintro x rfl
    exact ⟨_, by rw [List.take_length]⟩
  have rep : ∀ {id pay secret cp r2 raw1 raw2},
      Replied K 65536 ident s id pay secret cp r2 raw1 raw2 → ∀ n x,
      x = s.out ++ (ident ++ Spec.crlf ++ raw) ++ (raw1 ++ raw2).take n →
      ∃ id pay o r1 cp r2 serverEphemeral sig pad1 raw1 pad2 raw2 n,
          Spec.KexInitSent 65536 s.inp id pay o r1 ∧
          (∃ a b c d, Spec.Negotiation o Host.kexInit a b c d) ∧
          Spec.NextPacket 65536 r1 (Spec.encode (.kexEcdhInit ⟨cp⟩)) r2 ∧ cp.length = 32 ∧
          Spec.PacketOf .b8 true
            (Spec.replyBytes (Spec.p256Key K.hostPoint) serverEphemeral sig) pad1 raw1 ∧
          Spec.PacketOf .b8 true (Spec.encode .newKeys) pad2 raw2 ∧
          x = s.out ++ (ident ++ Spec.crlf ++ raw ++ (raw1 ++ raw2).take n) := by
    rintro id pay secret cp r2 raw1 raw2 ⟨⟨o, r1, pay2, hR, hN, hn, hg⟩, _, ⟨p1, hp1⟩, ⟨p2, hp2⟩⟩
      n x rfl
    rw [GoodKey.iff] at hg
    obtain ⟨hl, rfl⟩ := hg
    exact ⟨id, pay, o, r1, cp, r2, _, _, p1, raw1, p2, raw2, n, hR.sent, negotiated_iff.mp hN, hn, hl,
      hp1, hp2, by simp⟩
  have rep' : ∀ {raw1 raw2 x y : Bytes}, x = y ++ (raw1 ++ raw2) →
      x = y ++ (raw1 ++ raw2).take (raw1 ++ raw2).length := by
    rintro raw1 raw2 x y rfl
    rw [List.take_length]
  revert ho
  generalize (Host.handleNewClient K ident s).1 = res
  generalize (Host.handleNewClient K ident s).2 = s'
  intro ho
  cases ho with
  | helloWrite n _ _ _ h => exact .inl ⟨n, h⟩
  | early _ _ _ h => exact .inl (full _ h)
  | window0 _ _ _ _ _ h => exact .inl (full _ h)
  | unsupported _ _ _ _ _ _ _ h => exact .inl (full _ h)
  | noKey _ _ _ _ _ _ _ _ h => exact .inl (full _ h)
  | window1 _ _ _ _ _ _ _ h => exact .inl (full _ h)
  | badKey _ _ _ _ _ _ _ _ _ h => exact .inl (full _ h)
  | replyWrite _ _ _ _ _ _ _ n _ hD _ h => exact .inr (rep hD n _ h)
  | noNewKeys _ _ _ _ _ _ _ _ _ hD h => exact .inr (rep hD _ _ (rep' h))
  | window2 _ _ _ _ _ _ _ _ hD h => exact .inr (rep hD _ _ (rep' h))
  | badNewKeys _ _ _ _ _ _ _ _ _ _ _ hD h => exact .inr (rep hD _ _ (rep' h))
  | otherMessage _ _ _ _ _ _ _ _ _ _ _ hD h => exact .inr (rep hD _ _ (rep' h))
  | done _ _ _ _ _ _ _ _ _ _ hD h => exact .inr (rep hD _ _ (rep' h))

/-- C31: success requires the client's KEXINIT, ECDH_INIT and NEWKEYS, consumes exactly these, and
the server has sent exactly its identification line, KEXINIT, reply and NEWKEYS. Each cipher starts
with the number of packets sent in its direction. -/
theorem C31_success (K : Crypto) (ident : Bytes) (s s' : IoSt) (c : HostClient)
    (hid : Spec.Fits ident) (h : Host.handleNewClient K ident s = (ok c, s')) :
    ∃ id payC o r1 cp payS serverEphemeral sig r sent,
      Spec.KexInitSent 65536 s.inp id payC o r1 ∧
      (∃ kex hostKey toServer toClient,
        Spec.Negotiation o Host.kexInit kex hostKey toServer toClient) ∧
      cp.length = 32 ∧
      s.inp = r ++ r1 ∧
      (let received := [Spec.encode (.kexEcdhInit ⟨cp⟩), Spec.encode .newKeys]
       let replied := [payS, Spec.replyBytes (Spec.p256Key K.hostPoint) serverEphemeral sig,
        Spec.encode .newKeys]
       payS = Spec.encode (.kexInit Host.kexInit) ∧
       Spec.Packets 65536 r1 received s'.inp ∧
       Spec.Packets 65536 sent replied [] ∧
       s'.out = s.out ++ (ident ++ Spec.crlf ++ sent) ∧
       c.receiveCipher.counter.toNat = (payC :: received).length ∧
       c.sendCipher.counter.toNat = replied.length) := by
  obtain ⟨id, pay, o, r1, secret, cp, r2, pad0, raw0, pad1, raw1, pad2, raw2, hp0, hR, hN, hl, hn2,
    hn3, hk, hp1, hp2, hout, hc⟩ := Host.success K hid h
  obtain ⟨sig, hsig, hrep⟩ := reply_eq K (K.dhPublic secret) (theHash K ident id pay secret cp)
  have hrl := replyPayload_length K (theHash K ident id pay secret cp) (K.dhPublic_length secret)
  rw [hrep] at hp1 hrl
  have hS := hR.sent
  obtain ⟨_, _, _, q, k, r0, _, he, raw, hr, _⟩ := hR.sent
  have small : ∀ {p pad raw : Bytes}, Spec.PacketOf .b8 true p pad raw → p.length ≤ 1000 →
      ∀ t, Spec.NextPacket 65536 (raw ++ t) p t := by
    intro p pad raw hp hl t
    refine ⟨raw, rfl, packetOf_framed hp, ?_⟩
    have := hp.maxPad
    rw [hp.bytes]
    len
  refine ⟨id, pay, o, r1, cp, kexPayload, K.dhPublic secret, sig,
    q ++ List.replicate k 83 ++ id ++ Spec.crlf ++ raw, raw0 ++ raw1 ++ raw2, hS,
    negotiated_iff.mp hN, hl, by rw [he, hr]; simp, ?_⟩
  refine ⟨rfl, ⟨r2, hn2, _, hn3, rfl⟩, ?_, ?_, ?_, ?_⟩
  · refine ⟨raw1 ++ raw2, ?_, raw2, ?_, [], ?_, rfl⟩
    · rw [List.append_assoc]
      exact small hp0 (by rw [kexPayload_length]; omega) _
    · exact small hp1 (by omega) _
    · have := small hp2 (by decide) []
      rw [List.append_nil] at this
      exact this
  · rw [hout]; simp
  · rw [hc]; rfl
  · rw [hc]; rfl

/-! ### C32 agreement with a client -/

/-- the handshake succeeded, and someone who can compute the shared secret from the server's
ephemeral key, by the function `f`, and who computes session identifier and keys from the bytes seen,
by the rules of RFC 4253 section 7.2 and RFC 8731, gets those of the server. The client's
identification string, KEXINIT and ephemeral key `cp` are given, the rest is taken from the server's
output. The reply has a signature of the session identifier. -/
def AgreementBy (K : Crypto) (ident : Bytes) (s : IoSt) (text pay cp : Bytes) (f : Bytes → Bytes)
    (rest : Bytes) : Prop :=
  ∃ c s', Host.handleNewClient K ident s = (ok c, s') ∧ s'.inp = rest ∧
    ∃ serverKexInit hostKey serverEphemeral sig pad0 raw0 pad1 raw1 pad2 raw2,
      Spec.PacketOf .b8 true serverKexInit pad0 raw0 ∧
      Spec.PacketOf .b8 true (Spec.replyBytes hostKey serverEphemeral sig) pad1 raw1 ∧
      Spec.PacketOf .b8 true (Spec.encode .newKeys) pad2 raw2 ∧
      s'.out = s.out ++ (ident ++ Spec.crlf ++ raw0 ++ raw1 ++ raw2) ∧
      hostKey = Spec.p256Key K.hostPoint ∧
      ∀ e k, Spec.TranscriptBytes
          { clientId := b! "SSH-2.0-" ++ text, serverId := ident, clientKexInit := pay, serverKexInit,
            hostKey, clientEphemeral := cp, serverEphemeral,
            secret := f serverEphemeral } e →
        Spec.MpintBody (Spec.beVal (f serverEphemeral)) k →
        c.sessionIdentifier = K.hash e ∧
        Spec.P256Signature (K.sign (K.hash e)).1 (K.sign (K.hash e)).2 sig ∧
        c.receiveCipher =
          { keyData := Spec.keyBlock K.hash (Spec.str k) (K.hash e) 67 (K.hash e) 0
            keyLength := Spec.keyBlock K.hash (Spec.str k) (K.hash e) 67 (K.hash e) 1
            counter := 3, uses := [] } ∧
        c.sendCipher =
          { keyData := Spec.keyBlock K.hash (Spec.str k) (K.hash e) 68 (K.hash e) 0
            keyLength := Spec.keyBlock K.hash (Spec.str k) (K.hash e) 68 (K.hash e) 1
            counter := 3, uses := [] }

/-- agreement with a client that has the secret `x` -/
def Agreement (K : Crypto) (ident : Bytes) (s : IoSt) (text pay x rest : Bytes) : Prop :=
  AgreementBy K ident s text pay (K.dhPublic x) (K.dhShared x) rest

/-- C32 in full: agreement with every client that follows RFC 4253, `between` being the packets the
server has to ignore -/
def C32_statement : Prop :=
  ∀ (K : Crypto) (ident : Bytes) (s : IoSt) (text pay x r rest : Bytes) (o : Kex.KexInit)
    (between : List Bytes),
    (∀ a b, K.dhShared a (K.dhPublic b) = K.dhShared b (K.dhPublic a)) →
    Spec.Fits ident → s.wcap = none →
    Spec.ClientStart 65536 s.inp text pay o r →
    (∃ a b c d, Spec.Negotiation o Host.kexInit a b c d) →
    Spec.Between o Host.kexInit between →
    Spec.Packets 65536 r
      (between ++ [Spec.encode (.kexEcdhInit ⟨K.dhPublic x⟩), Spec.encode .newKeys]) rest →
    Agreement K ident s text pay x rest

theorem Host.agreement (K : Crypto) (ident : Bytes) (s : IoSt) (text pay cp r rest : Bytes)
    (o : Kex.KexInit) (f : Bytes → Bytes) (hl : cp.length = 32)
    (hf : ∀ y, K.dhShared y cp = f (K.dhPublic y))
    (hid : Spec.Fits ident) (hw : s.wcap = none)
    (hc : Spec.ClientStart 65536 s.inp text pay o r)
    (hneg : ∃ a b c d, Spec.Negotiation o Host.kexInit a b c d)
    (hpk : Spec.Packets 65536 r
      [Spec.encode (.kexEcdhInit ⟨cp⟩), Spec.encode .newKeys] rest) :
    AgreementBy K ident s text pay cp f rest := by
  obtain ⟨pad, raw, hp, ho⟩ := Host.outcome K s hid
  obtain ⟨r2, hn2, r3, hn3, rfl⟩ := hpk
  have hR := Reached.start hc
  obtain ⟨secret, raw1, raw2, hD, hout, h⟩ := ho.keyed hw (by omega) hR (negotiated_iff.mpr hneg) hn2
    (GoodKey.iff.mpr ⟨hl, rfl⟩)
  obtain ⟨_, _, ⟨pad1, hp1⟩, ⟨pad2, hp2⟩⟩ := hD
  obtain ⟨sig, hsig, hrep⟩ := reply_eq K (K.dhPublic secret)
    (theHash K ident (b! "SSH-2.0-" ++ text) pay secret (cp))
  rw [hrep] at hp1
  rcases h with ⟨_, h⟩ | ⟨_, _, _, h⟩ | ⟨_, pay3, r3', m, h, hm, hne⟩ | ⟨pay3, r3', h, hm, hinp, hres⟩
  · rcases h with h | ⟨pay3, r3', e, h, hm⟩
    · exact absurd h (hn3.not_window (by omega))
    · rw [(h.unique hn3).1, newKeys_iff.mpr (show Spec.encode .newKeys = [21] from rfl)] at hm
      cases hm
  · exact absurd hn3 (h _ _)
  · rw [(h.unique hn3).1, newKeys_iff.mpr (show Spec.encode .newKeys = [21] from rfl), R.ok.injEq] at hm
    exact absurd hm.symm hne
  · rw [(h.unique hn3).2] at hinp
    refine ⟨_, (Host.handleNewClient K ident s).2, Prod.ext hres rfl, hinp, kexPayload,
      Spec.p256Key K.hostPoint, K.dhPublic secret, sig, pad, raw, pad1, raw1, pad2, raw2, hp, hp1, hp2,
      by rw [hout]; simp, rfl, ?_⟩
    intro e k he hk
    rw [← hf secret] at he hk
    have hk' : k = mpBody (K.dhShared secret (cp)) :=
      mpintBody_unique hk (mpBody_spec _)
    have he' : K.hash e = theHash K ident (b! "SSH-2.0-" ++ text) pay secret (cp) := by
      rw [theHash_eq, transcript_unique he]; rfl
    rw [he', hk']
    exact ⟨rfl, hsig, rfl, rfl⟩

/-- C32 for clients that send nothing the server would have to ignore -/
theorem C32_agreement_partial (K : Crypto) (ident : Bytes) (s : IoSt) (text pay x r rest : Bytes)
    (o : Kex.KexInit)
    (hcomm : ∀ a b, K.dhShared a (K.dhPublic b) = K.dhShared b (K.dhPublic a))
    (hid : Spec.Fits ident) (hw : s.wcap = none)
    (hc : Spec.ClientStart 65536 s.inp text pay o r)
    (hneg : ∃ a b c d, Spec.Negotiation o Host.kexInit a b c d)
    (hpk : Spec.Packets 65536 r
      [Spec.encode (.kexEcdhInit ⟨K.dhPublic x⟩), Spec.encode .newKeys] rest) :
    Agreement K ident s text pay x rest :=
  Host.agreement K ident s text pay _ r rest o _ (K.dhPublic_length x) (fun y => hcomm y x) hid hw hc
    hneg hpk

/-! ### concrete clients -/

/-- a packet with zero padding -/
def zpkt (p : Bytes) : Bytes :=
  let k := 4 + (8 - (p.length + 9) % 8) % 8
  Spec.u32 (1 + p.length + k) ++ (UInt8.ofNat k :: (p ++ List.replicate k 0))

theorem zpkt_next {p : Bytes} (t : Bytes) (h : p.length ≤ 35000) :
    Spec.NextPacket 65536 (zpkt p ++ t) p t := by
  refine ⟨zpkt p, rfl, ⟨List.replicate (4 + (8 - (p.length + 9) % 8) % 8) 0, ?_, ?_, ?_, ?_, ?_⟩, ?_⟩
  · rw [List.length_replicate]; rfl
  · rw [List.length_replicate]; omega
  · rw [List.length_replicate]
    show (4 + (1 + p.length + _)) % 8 = 0
    omega
  · rw [List.length_replicate]; omega
  · rw [List.length_replicate]; omega
  · simp only [zpkt]; len

/-- a KEXINIT with more algorithms than needed, with the supported one last, which announces a
guess -/
def guessKexInit : Kex.KexInit :=
  { Host.kexInit with
    cookie := b! "0123456789abcdef"
    kexAlgorithms := ⟨b! "ecdh-sha2-nistp256,curve25519-sha256"⟩
    firstKexPacketFollows := true }

/-- the same without a guess -/
def plainKexInit : Kex.KexInit := { guessKexInit with firstKexPacketFollows := false }

theorem guess_names : Spec.NameListOf [b! "ecdh-sha2-nistp256", b! "curve25519-sha256"]
    guessKexInit.kexAlgorithms.str := by
  refine ⟨?_, rfl⟩
  intro n hn
  simp only [List.mem_cons, List.not_mem_nil, or_false] at hn
  rcases hn with rfl | rfl <;> decide

theorem guess_WF (b : Bool) : Spec.WF (.kexInit { guessKexInit with firstKexPacketFollows := b }) := by
  obtain ⟨_, _, h⟩ := Host.kexInit_WF
  exact ⟨rfl, ⟨show Spec.Fits guessKexInit.kexAlgorithms.str by decide, _, guess_names⟩, h⟩

theorem guess_negotiation (b : Bool) : Spec.Negotiation { guessKexInit with firstKexPacketFollows := b }
    Host.kexInit (b! "curve25519-sha256") (b! "ecdsa-sha2-nistp256")
    (b! "chacha20-poly1305@openssh.com") (b! "chacha20-poly1305@openssh.com") := by
  obtain ⟨s1, s2, s3, s4⟩ := serverLists
  exact ⟨⟨_, _, guess_names, s1, by decide⟩, ⟨_, _, s2, s2, by decide⟩, ⟨_, _, s3, s3, by decide⟩,
    ⟨_, _, s4, s4, by decide⟩⟩

/-- the start of a client's stream -/
def startBytes (b : Bool) : Bytes :=
  b! "SSH-2.0-c" ++ Spec.crlf ++ zpkt (Spec.encode (.kexInit { guessKexInit with
    firstKexPacketFollows := b }))

theorem start_client (b : Bool) (r : Bytes) :
    Spec.ClientStart 65536 (startBytes b ++ r) (b! "c")
      (Spec.encode (.kexInit { guessKexInit with firstKexPacketFollows := b }))
      { guessKexInit with firstKexPacketFollows := b } r := by
  refine ⟨?_, by decide, guess_WF b, ⟨1, by decide, rfl⟩, _, ?_, zpkt_next r ?_⟩
  · intro a c h
    have := congrArg List.length h
    simp [Spec.crlf] at this
    omega
  · simp [startBytes]
  · have : (Spec.encode (.kexInit { guessKexInit with firstKexPacketFollows := b })).length = 191 := by
      cases b <;> rfl
    omega

/-- the example client meets all hypotheses of C32_agreement_partial, for any primitives, with any
bytes after its NEWKEYS -/
example (K : Crypto)
    (hcomm : ∀ a b, K.dhShared a (K.dhPublic b) = K.dhShared b (K.dhPublic a))
    (rng : Tape) (x more : Bytes) :
    Agreement K (b! "SSH-2.0-nora")
      { inp := startBytes false ++ (zpkt (Spec.encode (.kexEcdhInit ⟨K.dhPublic x⟩)) ++
          (zpkt (Spec.encode .newKeys) ++ more)),
        out := [], wcap := none, rng, log := [] }
      (b! "c") (Spec.encode (.kexInit plainKexInit)) x more := by
  refine C32_agreement_partial K _ _ _ _ x _ more plainKexInit hcomm (by decide) rfl
    (start_client false _) ⟨_, _, _, _, guess_negotiation false⟩ ⟨_, zpkt_next _ ?_, _, zpkt_next _ ?_, rfl⟩
  · have := K.dhPublic_length x
    show (30 :: Spec.str (K.dhPublic x)).length ≤ 35000
    rw [List.length_cons, str_length]
    omega
  · decide

/-- and primitives with commuting Diffie-Hellman exist -/
example : ∀ a b, Crypto.trivial.dhShared a (Crypto.trivial.dhPublic b) =
    Crypto.trivial.dhShared b (Crypto.trivial.dhPublic a) := by
  intro a b
  show List.replicate 32 (a.getD 0 0 + b.getD 0 0) = List.replicate 32 (b.getD 0 0 + a.getD 0 0)
  rw [UInt8.add_comm]

/-- a client whose packet after KEXINIT is not an ECDH_INIT with 32 bytes of key makes the server
panic -/
theorem Host.bad_key (K : Crypto) {ident : Bytes} (s : IoSt) {b : Bool} {pay2 r : Bytes}
    (hid : Spec.Fits ident) (hw : s.wcap = none) (hi : s.inp = startBytes b ++ (zpkt pay2 ++ r))
    (hl : pay2.length ≤ 35000) (hg : ∀ cp, ¬ GoodKey pay2 cp) :
    (Host.handleNewClient K ident s).1 = R.panic := by
  obtain ⟨pad, raw, hp, ho⟩ := Host.outcome K s hid
  have hc := start_client b (zpkt pay2 ++ r)
  rw [← hi] at hc
  exact ho.bad_key hw (Reached.start hc) (negotiated_iff.mpr ⟨_, _, _, _, guess_negotiation b⟩)
    (zpkt_next r hl) hg

/-- C32 is false of the code: the server does not ignore the packet of a wrong guess (RFC 4253
section 7.1). This client prefers ecdh-sha2-nistp256, sends an ECDH_INIT with a P-256 point at once,
and then, as the server prefers curve25519-sha256, one for that. The server panics on the first. -/
theorem C32_refuted_guess (K : Crypto) (ident : Bytes) (s : IoSt) (point r : Bytes)
    (hid : Spec.Fits ident) (hw : s.wcap = none) (hl : point.length = 65)
    (hi : s.inp = startBytes true ++ (zpkt (Spec.encode (.kexEcdhInit ⟨point⟩)) ++ r)) :
    Spec.WrongGuess guessKexInit Host.kexInit ∧ (Host.handleNewClient K ident s).1 = R.panic := by
  refine ⟨⟨rfl, .inl ⟨_, _, _, _, guess_names, serverLists.1, by decide⟩⟩, ?_⟩
  refine Host.bad_key K s hid hw hi ?_ ?_
  · show (30 :: Spec.str point).length ≤ 35000
    rw [List.length_cons, str_length]
    omega
  · rintro cp h
    rw [GoodKey.iff] at h
    obtain ⟨h1, h2⟩ := h
    have h2 : (30 :: Spec.str point) = 30 :: Spec.str cp := h2
    have := congrArg List.length h2
    rw [List.length_cons, List.length_cons, str_length, str_length] at this
    omega

/-- C32 is also false for clients that send an IGNORE message during the key exchange, which RFC 4253
section 7.1 allows -/
theorem C32_refuted_ignore (K : Crypto) (ident : Bytes) (s : IoSt) (d r : Bytes)
    (hid : Spec.Fits ident) (hw : s.wcap = none) (hl : d.length ≤ 30000)
    (hi : s.inp = startBytes false ++ (zpkt (Spec.encode (.ignore ⟨d⟩)) ++ r)) :
    (Host.handleNewClient K ident s).1 = R.panic := by
  refine Host.bad_key K s hid hw hi ?_ ?_
  · show (2 :: Spec.str d).length ≤ 35000
    rw [List.length_cons, str_length]
    omega
  · rintro cp h
    rw [GoodKey.iff] at h
    obtain ⟨h1, h2⟩ := h
    have h2 : (2 :: Spec.str d) = 30 :: Spec.str cp := h2
    rw [List.cons.injEq] at h2
    exact absurd h2.1 (by decide)

theorem C32_refuted : ¬ C32_statement := by
  intro h
  have hk : (Spec.encode (.kexEcdhInit ⟨Crypto.trivial.dhPublic []⟩)).length ≤ 35000 := by decide
  obtain ⟨c, s', e, _⟩ := h Crypto.trivial (b! "SSH-2.0-nora")
    { inp := startBytes false ++ (zpkt (Spec.encode (.ignore ⟨[]⟩)) ++
        (zpkt (Spec.encode (.kexEcdhInit ⟨Crypto.trivial.dhPublic []⟩)) ++
          (zpkt (Spec.encode .newKeys) ++ []))),
      out := [], wcap := none, rng := fun _ => 0, log := [] }
    (b! "c") _ [] _ [] plainKexInit [Spec.encode (.ignore ⟨[]⟩)]
    (by
      intro a b
      show List.replicate 32 (a.getD 0 0 + b.getD 0 0) = List.replicate 32 (b.getD 0 0 + a.getD 0 0)
      rw [UInt8.add_comm])
    (by decide) rfl (start_client false _) ⟨_, _, _, _, guess_negotiation false⟩
    ⟨[], [Spec.encode (.ignore ⟨[]⟩)], rfl,
      fun p hp => ⟨[], by decide, List.mem_singleton.mp hp⟩, .inl ⟨fun hg => absurd hg.1 (by decide), rfl⟩⟩
    ⟨_, zpkt_next _ (by decide), _, zpkt_next _ hk, _, zpkt_next _ (by decide), rfl⟩
  have := C32_refuted_ignore Crypto.trivial (b! "SSH-2.0-nora") _ [] _ (by decide) rfl (by decide)
    (rfl : (IoSt.mk (startBytes false ++ (zpkt (Spec.encode (.ignore ⟨[]⟩)) ++
        (zpkt (Spec.encode (.kexEcdhInit ⟨Crypto.trivial.dhPublic []⟩)) ++
          (zpkt (Spec.encode .newKeys) ++ [])))) [] none (fun _ => 0) []).inp = _)
  rw [e] at this
  cases this

/-! ### C33 panics -/

/-- C33 in full -/
def C33_statement : Prop :=
  ∀ (K : Crypto) (ident : Bytes) (s : IoSt), Spec.Fits ident →
    (Host.handleNewClient K ident s).1 ≠ R.panic

/-- bytes that are no encoding of a message, except for the replies that cannot be told apart -/
def Unreadable (p : Bytes) : Prop := ∀ m, Spec.isReply m = false → Spec.WF m → ¬ Spec.Wire m p

theorem unreadable_of {p : Bytes} {e} (h : Message.parse p = err e) : Unreadable p := by
  intro m hm hw hx
  rw [(Message.parse_iff hm).mpr ⟨hw, hx⟩] at h
  cases h

theorem Unreadable.not_ok {p : Bytes} (h : Unreadable p) (m : Message) : Message.parse p ≠ ok m := by
  intro e
  cases hm : Spec.isReply m with
  | true => exact Message.parse_reply hm e
  | false => exact h m hm ((Message.parse_iff hm).mp e).1 ((Message.parse_iff hm).mp e).2

/-- the streams of clients that make the server panic -/
def PanicStream (inp : Bytes) : Prop :=
  ∃ id r0, Spec.Greeting inp id r0 ∧
    -- the announced length of the first packet
    (Spec.LengthInWindow 65536 r0 ∨
     ∃ pay o r1, Spec.NextPacket 65536 r0 pay r1 ∧ Spec.WF (.kexInit o) ∧
      Spec.Wire (.kexInit o) pay ∧ (∃ a b c d, Spec.Negotiation o Host.kexInit a b c d) ∧
      -- of the second
      (Spec.LengthInWindow 65536 r1 ∨
       ∃ pay2 r2, Spec.NextPacket 65536 r1 pay2 r2 ∧
        -- the second packet is not an ECDH_INIT with 32 bytes of key
        ((∀ cp, cp.length = 32 → pay2 ≠ Spec.encode (.kexEcdhInit ⟨cp⟩)) ∨
         -- the announced length of the third packet
         Spec.LengthInWindow 65536 r2 ∨
         -- the third packet is not a message
         ∃ pay3 r3, Spec.NextPacket 65536 r2 pay3 r3 ∧ Unreadable pay3)))

/-- C33: only these streams make the server panic, also if writes fail -/
theorem C33_causes_partial (K : Crypto) (ident : Bytes) (s : IoSt) (hid : Spec.Fits ident)
    (hpanic : (Host.handleNewClient K ident s).1 = R.panic) : PanicStream s.inp := by
  obtain ⟨pad, raw, hp, ho⟩ := Host.outcome K s hid
  have key : ∀ {pay2 : Bytes}, (∀ cp, ¬ GoodKey pay2 cp) ↔
      (∀ cp, cp.length = 32 → pay2 ≠ Spec.encode (.kexEcdhInit ⟨cp⟩)) := by
    intro pay2
    constructor
    · intro h cp hl e; exact h cp (GoodKey.iff.mpr ⟨hl, e⟩)
    · intro h cp hg; exact h cp (GoodKey.iff.mp hg).1 (GoodKey.iff.mp hg).2
  revert hpanic ho
  generalize (Host.handleNewClient K ident s).1 = res
  generalize (Host.handleNewClient K ident s).2 = s'
  rintro rfl ho
  have reach : ∀ {id pay o r}, Reached 65536 s id pay o r → Negotiated o → 
      (Spec.LengthInWindow 65536 r ∨
       ∃ pay2 r2, Spec.NextPacket 65536 r pay2 r2 ∧
        ((∀ cp, cp.length = 32 → pay2 ≠ Spec.encode (.kexEcdhInit ⟨cp⟩)) ∨
         Spec.LengthInWindow 65536 r2 ∨
         ∃ pay3 r3, Spec.NextPacket 65536 r2 pay3 r3 ∧ Unreadable pay3)) →
      PanicStream s.inp := by
    rintro id pay o r ⟨⟨r0, h1, h2⟩, hk⟩ hN h
    obtain ⟨hwf, hx⟩ := (Message.parse_iff rfl).mp hk
    exact ⟨id, r0, (C21_exact _ _ _).mp h1, .inr ⟨pay, o, r, h2, hwf, hx, negotiated_iff.mp hN, h⟩⟩
  cases ho with
  | window0 id r _ h1 h2 => exact ⟨id, r, (C21_exact _ _ _).mp h1, .inl h2⟩
  | window1 id pay o r _ h1 h2 _ h3 => exact reach h1 h2 (.inl h3)
  | badKey id pay o r pay2 r2 _ h1 h2 _ h3 h4 =>
    exact reach h1 h2 (.inr ⟨pay2, r2, h3, .inl (key.mp h4)⟩)
  | window2 id pay secret cp r2 raw1 raw2 _ hD _ h3 =>
    obtain ⟨o, r, pay2, h1, h2, hn, _⟩ := hD.reached
    exact reach h1 h2 (.inr ⟨pay2, r2, hn, .inr (.inl h3)⟩)
  | badNewKeys id pay secret cp r2 raw1 raw2 pay3 r3 e _ hD _ h3 h4 =>
    obtain ⟨o, r, pay2, h1, h2, hn, _⟩ := hD.reached
    exact reach h1 h2 (.inr ⟨pay2, r2, hn, .inr (.inr ⟨pay3, r3, h3, unreadable_of h4⟩)⟩)

/-- C33: exactly these streams make the server panic (when writes do not fail) -/
theorem C33_panics_partial (K : Crypto) (ident : Bytes) (s : IoSt) (hid : Spec.Fits ident)
    (hw : s.wcap = none) :
    (Host.handleNewClient K ident s).1 = R.panic ↔ PanicStream s.inp := by
  obtain ⟨pad, raw, hp, ho⟩ := Host.outcome K s hid
  have key : ∀ {pay2 : Bytes}, (∀ cp, ¬ GoodKey pay2 cp) ↔
      (∀ cp, cp.length = 32 → pay2 ≠ Spec.encode (.kexEcdhInit ⟨cp⟩)) := by
    intro pay2
    constructor
    · intro h cp hl e; exact h cp (GoodKey.iff.mpr ⟨hl, e⟩)
    · intro h cp hg; exact h cp (GoodKey.iff.mp hg).1 (GoodKey.iff.mp hg).2
  refine ⟨C33_causes_partial K ident s hid, ?_⟩
  · rintro ⟨id, r0, h1, h⟩
    rw [← C21_exact] at h1
    rcases h with h | ⟨pay, o, r1, h2, hwf, hx, hneg, h⟩
    · exact ho.window_first hw (by omega) h1 h
    have hR : Reached 65536 s id pay o r1 := ⟨⟨r0, h1, h2⟩, (Message.parse_iff rfl).mpr ⟨hwf, hx⟩⟩
    rw [← negotiated_iff] at hneg
    rcases h with h | ⟨pay2, r2, hn, h⟩
    · exact ho.window hw (by omega) hR hneg h
    by_cases hg : ∃ cp, GoodKey pay2 cp
    · obtain ⟨cp, hg⟩ := hg
      obtain ⟨secret, raw1, raw2, hD, hout, hh⟩ := ho.keyed hw (by omega) hR hneg hn hg
      rcases h with h | h
      · exact absurd hg (key.mpr h cp)
      rcases hh with ⟨hh, _⟩ | ⟨e, _, hh1, hh2⟩ | ⟨_, pay3, r3, m, hh, hm, _⟩ | ⟨pay3, r3, hh, hm, _⟩
      · exact hh
      · rcases h with h | ⟨pay3, r3, h, _⟩
        · exact absurd h hh1
        · exact absurd h (hh2 _ _)
      · rcases h with h | ⟨pay3', r3', h, hm'⟩
        · exact absurd h (hh.not_window (by omega))
        · rw [(h.unique hh).1] at hm'
          exact absurd hm (hm'.not_ok _)
      · rcases h with h | ⟨pay3', r3', h, hm'⟩
        · exact absurd h (hh.not_window (by omega))
        · rw [(h.unique hh).1] at hm'
          exact absurd hm (hm'.not_ok _)
    · exact ho.bad_key hw hR hneg hn (fun cp h => hg ⟨cp, h⟩)

/-- C33 is false of the code, cause 1: eight bytes after the identification string (C17) -/
theorem C33_refuted_length (K : Crypto) (ident : Bytes) (s : IoSt) (rest : Bytes)
    (hid : Spec.Fits ident) (hw : s.wcap = none)
    (hi : s.inp = b! "SSH-2.0-x\r\n" ++ [0, 1, 0, 0] ++ rest) :
    (Host.handleNewClient K ident s).1 = R.panic := by
  rw [C33_panics_partial K ident s hid hw]
  refine ⟨b! "SSH-2.0-x", [0, 1, 0, 0] ++ rest, ?_, .inl ⟨65536, rest, rfl, by omega, by omega, by omega⟩⟩
  have := C19_parse (b! "x") ([0, 1, 0, 0] ++ rest)
    (fun a c h => by
      have := congrArg List.length h
      simp [Spec.crlf] at this
      omega)
  rw [hi, ← C21_exact]
  exact this

/-- cause 2: an ECDH_INIT with a key of another length -/
theorem C33_refuted_key_length (K : Crypto) (ident : Bytes) (s : IoSt) (cp r : Bytes)
    (hid : Spec.Fits ident) (hw : s.wcap = none) (hl : cp.length ≠ 32) (hl' : cp.length ≤ 30000)
    (hi : s.inp = startBytes false ++ (zpkt (Spec.encode (.kexEcdhInit ⟨cp⟩)) ++ r)) :
    (Host.handleNewClient K ident s).1 = R.panic := by
  refine Host.bad_key K s hid hw hi ?_ ?_
  · show (30 :: Spec.str cp).length ≤ 35000
    rw [List.length_cons, str_length]
    omega
  · rintro cp' h
    rw [GoodKey.iff] at h
    obtain ⟨h1, h2⟩ := h
    have h2 : (30 :: Spec.str cp) = 30 :: Spec.str cp' := h2
    have := congrArg List.length h2
    rw [List.length_cons, List.length_cons, str_length, str_length] at this
    omega

/-- cause 3: the packet is empty, or starts with any byte other than 30 -/
theorem C33_refuted_not_init (K : Crypto) (ident : Bytes) (s : IoSt) (p r : Bytes)
    (hid : Spec.Fits ident) (hw : s.wcap = none) (hl : p.length ≤ 35000) (hp : p.head? ≠ some 30)
    (hi : s.inp = startBytes false ++ (zpkt p ++ r)) :
    (Host.handleNewClient K ident s).1 = R.panic := by
  refine Host.bad_key K s hid hw hi hl ?_
  rintro cp h
  rw [(GoodKey.iff.mp h).2] at hp
  exact hp rfl

/-- cause 4: the third packet is not a message, for example because it is empty -/
theorem C33_refuted_new_keys (K : Crypto) (ident : Bytes) (s : IoSt) (cp r : Bytes)
    (hid : Spec.Fits ident) (hw : s.wcap = none) (hl : cp.length = 32)
    (hi : s.inp = startBytes false ++ (zpkt (Spec.encode (.kexEcdhInit ⟨cp⟩)) ++ (zpkt [] ++ r))) :
    (Host.handleNewClient K ident s).1 = R.panic := by
  rw [C33_panics_partial K ident s hid hw]
  have hc := start_client false (zpkt (Spec.encode (.kexEcdhInit ⟨cp⟩)) ++ (zpkt [] ++ r))
  rw [← hi] at hc
  obtain ⟨⟨r0, h1, h2⟩, hk⟩ := Reached.start hc
  refine ⟨_, _, (C21_exact _ _ _).mp h1, .inr ⟨_, _, _, h2, guess_WF false, ⟨1, by decide, rfl⟩,
    ⟨_, _, _, _, guess_negotiation false⟩, .inr ⟨_, _, zpkt_next _ ?_, .inr (.inr ⟨_, _,
      zpkt_next _ (by decide), unreadable_of rfl⟩)⟩⟩⟩
  show (30 :: Spec.str cp).length ≤ 35000
  rw [List.length_cons, str_length]
  omega

theorem C33_refuted : ¬ C33_statement := fun h =>
  h Crypto.trivial (b! "SSH-2.0-nora")
    { inp := b! "SSH-2.0-x\r\n" ++ [0, 1, 0, 0] ++ [], out := [], wcap := none, rng := fun _ => 0,
      log := [] } (by decide)
    (C33_refuted_length _ _ _ [] (by decide) rfl rfl)

/-! ### C59 client keys of small order -/

/-- C59: a client key that gives the shared secret 0 whatever the server's secret is (X25519 has such
keys) is accepted, although RFC 8731 section 3 demands that the connection is aborted. The session
identifier and all keys are then a function of the bytes on the wire. -/
theorem C59_small_order (K : Crypto) (ident : Bytes) (s : IoSt) (text pay cp r rest : Bytes)
    (o : Kex.KexInit) (hl : cp.length = 32)
    (hz : ∀ y, K.dhShared y cp = List.replicate 32 0)
    (hid : Spec.Fits ident) (hw : s.wcap = none)
    (hc : Spec.ClientStart 65536 s.inp text pay o r)
    (hneg : ∃ a b c d, Spec.Negotiation o Host.kexInit a b c d)
    (hpk : Spec.Packets 65536 r [Spec.encode (.kexEcdhInit ⟨cp⟩), Spec.encode .newKeys] rest) :
    AgreementBy K ident s text pay cp (fun _ => List.replicate 32 0) rest :=
  Host.agreement K ident s text pay cp r rest o _ hl hz hid hw hc hneg hpk

/-- primitives with such a key -/
example : ∃ (K : Crypto) (cp : Bytes), cp.length = 32 ∧
    (∀ y, K.dhShared y cp = List.replicate 32 0) ∧
    K.dhShared [1] (List.replicate 32 9) ≠ List.replicate 32 0 :=
  ⟨{ Crypto.trivial with
      dhShared := fun s p => List.replicate 32 ((s.getD 0 0) * (p.getD 0 0))
      dhShared_length := by simp },
    List.replicate 32 0, by decide,
    fun y => by
      show List.replicate 32 (y.getD 0 0 * 0) = _
      rw [UInt8.mul_zero],
    by decide⟩

end Nora
