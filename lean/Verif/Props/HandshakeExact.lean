import Verif.Props.Handshake
import Verif.Props.IdentError
import Verif.Props.ParseError
import Verif.Lemmas.Send
/-
C99: the outcome of the handshake for every stream of the client.
-/
namespace Nora
open R

/-! ### the specification -/

/-- why a handshake fails -/
inductive Spec.Why where
  | ident (e : ParseIdentError)
  | packet (e : PacketParseError)
  | malformed (e : MessageParseError)
  | notKexInit | algorithms | notNewKeys

/-- the error that is returned for a failure -/
inductive Spec.Means : HandshakeError → Spec.Why → Prop
  | ident (e) : Spec.Means (.parseIdentifier e) (.ident e)
  | packet (e) : Spec.Means (.packetParse e) (.packet e)
  | malformed (e) : Spec.Means (.messageParse e) (.malformed e)
  | notKexInit : Spec.Means .expectedKeyExchangeInit .notKexInit
  | algorithms : Spec.Means .unsupportedAlgorithms .algorithms
  | notNewKeys : Spec.Means .expectedKeys .notNewKeys

/-- what the server replies to: the client's identification string, the payload of its KEXINIT and its key -/
structure Spec.Asked where
  id : Bytes
  pay : Bytes
  cp : Bytes

/-- How a handshake ends, and to what the server has replied before. The bytes `rest` belong to the
session. -/
inductive Spec.Ended where
  | fails (w : Spec.Why) (replied : Option Spec.Asked)
  | panics (replied : Option Spec.Asked)
  | session (a : Spec.Asked) (rest : Bytes)

/-- The next packet is read from `w`, and the handshake goes on with its payload. -/
inductive Spec.ReadNext (w : Bytes) (replied : Option Spec.Asked) (next : Bytes → Bytes → Spec.Ended → Prop) :
    Spec.Ended → Prop
  /-- the length just does not fit the buffer together with the length field -/
  | length : Spec.LengthInWindow 65536 w → Spec.ReadNext w replied next (.panics replied)
  | refused {e r} : Spec.Unframed .b8 true 65536 w e r →
    Spec.ReadNext w replied next (.fails (.packet e) replied)
  | packet {p r x} : Spec.NextPacket 65536 w p r → next p r x → Spec.ReadNext w replied next x

/-- no message is read from these bytes -/
def Spec.NoMessage (p : Bytes) : Prop := ∀ m, ¬ Spec.Reads p m

/-- the name is in the list -/
def Spec.Offers (l : NameList) (name : Bytes) : Prop := ∃ names, Spec.NameListOf names l.str ∧ name ∈ names

/-- the client knows the algorithms of the server -/
def Spec.Acceptable (o : Kex.KexInit) : Prop :=
  Spec.Offers o.kexAlgorithms (b! "curve25519-sha256") ∧
  Spec.Offers o.serverHostKeyAlgorithms (b! "ecdsa-sha2-nistp256") ∧
  Spec.Offers o.encryptionAlgorithmsClientToServer (b! "chacha20-poly1305@openssh.com") ∧
  Spec.Offers o.encryptionAlgorithmsServerToClient (b! "chacha20-poly1305@openssh.com")

/-- the third packet -/
inductive Spec.Third (a : Spec.Asked) (p r : Bytes) : Spec.Ended → Prop
  | malformed : Spec.NoMessage p → Spec.Third a p r (.panics (some a))
  | other {m} : Spec.Reads p m → m ≠ .newKeys → Spec.Third a p r (.fails .notNewKeys (some a))
  | newKeys : Spec.Reads p .newKeys → Spec.Third a p r (.session a r)

/-- the second packet; the reply is sent after it -/
inductive Spec.Second (id pay p r : Bytes) : Spec.Ended → Prop
  | noKey : (∀ cp : Bytes, cp.length = 32 → ¬ Spec.Reads p (.kexEcdhInit ⟨cp⟩)) →
    Spec.Second id pay p r (.panics none)
  | key {cp x} : cp.length = 32 → Spec.Reads p (.kexEcdhInit ⟨cp⟩) →
    Spec.ReadNext r (some ⟨id, pay, cp⟩) (Spec.Third ⟨id, pay, cp⟩) x → Spec.Second id pay p r x

/-- the first packet -/
inductive Spec.First (id p r : Bytes) : Spec.Ended → Prop
  | malformed {e} : Spec.ParseError p e → Spec.First id p r (.fails (.malformed e) none)
  | other {m} : Spec.Reads p m → (∀ o, m ≠ .kexInit o) → Spec.First id p r (.fails .notKexInit none)
  | algorithms {o} : Spec.Reads p (.kexInit o) → ¬ Spec.Acceptable o →
    Spec.First id p r (.fails .algorithms none)
  | kexInit {o x} : Spec.Reads p (.kexInit o) → Spec.Acceptable o →
    Spec.ReadNext r none (Spec.Second id p) x → Spec.First id p r x

/-- the handshake with a client that sends `inp` -/
inductive Spec.Shakes (inp : Bytes) : Spec.Ended → Prop
  | ident {e} : Spec.NoGreeting inp e → Spec.Shakes inp (.fails (.ident e) none)
  | greeting {id r x} : Spec.Greeting inp id r → Spec.ReadNext r none (Spec.First id) x → Spec.Shakes inp x

/-- the secret key of the server, from its random bytes after those for the padding of its KEXINIT -/
def Spec.SecretOf (rng : Tape) (secret : Bytes) : Prop :=
  ∃ n, Spec.LeastPad .b8 true Spec.serverKexInit.length n ∧ secret = (rng.skip n).bytes 32

/-- the exchange hash, with the identification string `ident` and the secret key `secret` of the server -/
def Spec.HashOf (K : Crypto) (ident secret : Bytes) (a : Spec.Asked) (hash : Bytes) : Prop :=
  ∃ e, Spec.TranscriptBytes
    { clientId := a.id, serverId := ident, clientKexInit := a.pay, serverKexInit := Spec.serverKexInit
      hostKey := Spec.p256Key K.hostPoint, clientEphemeral := a.cp, serverEphemeral := K.dhPublic secret
      secret := K.dhShared secret a.cp } e ∧ hash = K.hash e

/-- A packet with the least padding, from the random bytes `rng`; `rng'` are left. -/
def Spec.Padded (rng : Tape) (payload raw : Bytes) (rng' : Tape) : Prop :=
  ∃ n, Spec.LeastPad .b8 true payload.length n ∧ Spec.PacketOf .b8 true payload (rng.bytes n) raw ∧
    rng' = rng.skip n

/-- What the server has sent in the handshake: its identification string and KEXINIT, and if it has replied its
host key, its ephemeral key, its signature of the exchange hash, and NEWKEYS. -/
def Spec.Answered (K : Crypto) (ident : Bytes) (rng : Tape) (to : Option Spec.Asked) (sent : Bytes) : Prop :=
  ∃ raw0 rng0, Spec.Padded rng Spec.serverKexInit raw0 rng0 ∧
    match to with
    | none => sent = ident ++ Spec.crlf ++ raw0
    | some a => ∃ secret hash sig raw1 rng1 raw2 rng2, secret = rng0.bytes 32 ∧
      Spec.HashOf K ident secret a hash ∧ Spec.P256Signature (K.sign hash).1 (K.sign hash).2 sig ∧
      Spec.Padded (rng0.skip 32) (Spec.replyBytes (Spec.p256Key K.hostPoint) (K.dhPublic secret) sig) raw1 rng1 ∧
      Spec.Padded rng1 (Spec.encode .newKeys) raw2 rng2 ∧
      sent = ident ++ Spec.crlf ++ raw0 ++ raw1 ++ raw2

/-! ### one outcome for each stream -/

theorem Spec.Unframed.not_next {N : Nat} {w e r p r'} (hN : 5 ≤ N)
    (h : Spec.Unframed .b8 true N w e r) : ¬ Spec.NextPacket N w p r' := by
  rintro ⟨raw, hi, hf, hfit⟩
  obtain ⟨buf, rfl⟩ : ∃ buf : Bytes, buf.length = N := ⟨List.replicate N 0, List.length_replicate⟩
  have k := h.error (s := ⟨w, [], none, fun _ => 0, []⟩) (by omega) rfl
  obtain ⟨p, e', _⟩ := PacketIo.parse_framed (buf := buf) (s := ⟨w, [], none, fun _ => 0, []⟩) hf hfit hi
  rw [k] at e'
  cases e'

theorem Spec.Unframed.not_window {N : Nat} {w e r} (hN : 5 ≤ N) (hN2 : N < 4294967296)
    (h : Spec.Unframed .b8 true N w e r) : ¬ Spec.LengthInWindow N w := by
  obtain ⟨buf, rfl⟩ : ∃ buf : Bytes, buf.length = N := ⟨List.replicate N 0, List.length_replicate⟩
  have k := h.error (s := ⟨w, [], none, fun _ => 0, []⟩) (by omega) rfl
  exact PacketIo.parse_not_window (s := ⟨w, [], none, fun _ => 0, []⟩) hN hN2 (by rw [k]; simp)

theorem Spec.ReadNext.unique {w : Bytes} {b : Option Spec.Asked} {next : Bytes → Bytes → Spec.Ended → Prop}
    {x y : Spec.Ended} (h : Spec.ReadNext w b next x) (h' : Spec.ReadNext w b next y)
    (hnext : ∀ p r x y, next p r x → next p r y → x = y) : x = y := by
  cases h with
  | length h =>
    cases h' with
    | length => rfl
    | refused h' => exact absurd h (h'.not_window (by omega) (by omega))
    | packet h' => exact absurd h (h'.not_window (by omega))
  | refused h =>
    cases h' with
    | length h' => exact absurd h' (h.not_window (by omega) (by omega))
    | refused h' => rw [(C17_one_reason _ _ _ _ _ _ _ _ (by omega) h h').1]
    | packet h' => exact absurd h' (h.not_next (by omega))
  | packet h g =>
    cases h' with
    | length h' => exact absurd h' (h.not_window (by omega))
    | refused h' => exact absurd h (h'.not_next (by omega))
    | packet h' g' =>
      obtain ⟨rfl, rfl⟩ := h.unique h'
      exact hnext _ _ _ _ g g'

theorem Spec.Reads.unique {p : Bytes} {m m' : Message} (h : Spec.Reads p m) (h' : Spec.Reads p m') :
    m = m' := by
  rw [← reads_iff] at h h'
  rw [h] at h'
  exact R.ok.inj h'

theorem noMessage_of {p : Bytes} {e} (h : Message.parse p = err e) : Spec.NoMessage p := by
  intro m hm
  rw [← reads_iff, h] at hm
  cases hm

theorem negotiate_one {l : List Bytes} {n : Bytes} : Spec.negotiate l [n] = some n ↔ n ∈ l := by
  unfold Spec.negotiate
  constructor
  · intro h; exact List.mem_of_find?_eq_some h
  · intro h
    cases hf : l.find? (fun m => decide (m ∈ [n])) with
    | none => exact absurd (List.find?_eq_none.mp hf n h) (by simp)
    | some m =>
      have := List.find?_some hf
      simp only [List.mem_singleton, decide_eq_true_eq] at this
      rw [this]

theorem acceptable_iff {o : Kex.KexInit} : Spec.Acceptable o ↔ Negotiated o := by
  constructor
  · rintro ⟨⟨a, ha, na⟩, ⟨b, hb, nb⟩, ⟨c, hc, nc⟩, ⟨d, hd, nd⟩⟩
    exact ⟨a, b, c, d, ha, hb, hc, hd, negotiate_one.mpr na, negotiate_one.mpr nb, negotiate_one.mpr nc,
      negotiate_one.mpr nd⟩
  · rintro ⟨a, b, c, d, ha, hb, hc, hd, na, nb, nc, nd⟩
    exact ⟨⟨a, ha, negotiate_one.mp na⟩, ⟨b, hb, negotiate_one.mp nb⟩, ⟨c, hc, negotiate_one.mp nc⟩,
      ⟨d, hd, negotiate_one.mp nd⟩⟩

theorem Spec.Third.unique {a : Spec.Asked} {p r : Bytes} {x y : Spec.Ended} (h : Spec.Third a p r x)
    (h' : Spec.Third a p r y) : x = y := by
  cases h with
  | malformed h =>
    cases h' with
    | malformed => rfl
    | other h' | newKeys h' => exact absurd h' (h _)
  | other h g =>
    cases h' with
    | malformed h' => exact absurd h (h' _)
    | other => rfl
    | newKeys h' => exact absurd (h.unique h') g
  | newKeys h =>
    cases h' with
    | malformed h' => exact absurd h (h' _)
    | other h' g => exact absurd (h'.unique h) g
    | newKeys => rfl

theorem Spec.Second.unique {id pay p r : Bytes} {x y : Spec.Ended} (h : Spec.Second id pay p r x)
    (h' : Spec.Second id pay p r y) : x = y := by
  cases h with
  | noKey h =>
    cases h' with
    | noKey => rfl
    | key h1 h2 => exact absurd h2 (h _ h1)
  | key h1 h2 h3 =>
    cases h' with
    | noKey h' => exact absurd h2 (h' _ h1)
    | key h1' h2' h3' =>
      cases h2.unique h2'
      exact h3.unique h3' (fun _ _ _ _ => Spec.Third.unique)

theorem Spec.First.unique {id p r : Bytes} {x y : Spec.Ended} (h : Spec.First id p r x)
    (h' : Spec.First id p r y) : x = y := by
  cases h with
  | malformed h =>
    cases h' with
    | malformed h' => rw [(C102_one_error _ _ h).1 _ h']
    | other h' | algorithms h' | kexInit h' => exact absurd h' ((C102_one_error _ _ h).2 _)
  | other h g =>
    cases h' with
    | malformed h' => exact absurd h ((C102_one_error _ _ h').2 _)
    | other => rfl
    | algorithms h' | kexInit h' => exact absurd (h.unique h') (g _)
  | algorithms h g =>
    cases h' with
    | malformed h' => exact absurd h ((C102_one_error _ _ h').2 _)
    | other h' g' => exact absurd (h'.unique h) (g' _)
    | algorithms => rfl
    | kexInit h' g' => cases h.unique h'; exact absurd g' g
  | kexInit h g k =>
    cases h' with
    | malformed h' => exact absurd h ((C102_one_error _ _ h').2 _)
    | other h' g' => exact absurd (h'.unique h) (g' _)
    | algorithms h' g' => cases h.unique h'; exact absurd g g'
    | kexInit h' g' k' => exact k.unique k' (fun _ _ _ _ => Spec.Second.unique)

/-- C99: the specification allows one outcome for each stream -/
theorem C99_one_outcome (inp : Bytes) (x y : Spec.Ended) (h : Spec.Shakes inp x) (h' : Spec.Shakes inp y) :
    x = y := by
  cases h with
  | ident h =>
    rw [← C21_errors] at h
    cases h' with
    | ident h' => rw [← C21_errors, h] at h'; cases h'; rfl
    | greeting h' => rw [← C21_exact, h] at h'; cases h'
  | greeting h k =>
    rw [← C21_exact] at h
    cases h' with
    | ident h' => rw [← C21_errors, h] at h'; cases h'
    | greeting h' k' =>
      rw [← C21_exact, h] at h'
      cases h'
      exact k.unique k' (fun _ _ _ _ => Spec.First.unique)

/-! ### the handshake has this outcome -/

/-- the session identifier and the keys of the two directions, after a handshake -/
def Spec.Agreed (K : Crypto) (ident : Bytes) (rng : Tape) (a : Spec.Asked) (sid : Bytes)
    (toServer toClient : Spec.Keys) : Prop :=
  ∃ secret k, Spec.SecretOf rng secret ∧ Spec.HashOf K ident secret a sid ∧
    Spec.MpintBody (Spec.beVal (K.dhShared secret a.cp)) k ∧
    toServer.data = Spec.keyBlock K.hash (Spec.str k) sid (Spec.keyLetter .encryption .clientToServer) sid 0 ∧
    toServer.length = Spec.keyBlock K.hash (Spec.str k) sid (Spec.keyLetter .encryption .clientToServer) sid 1 ∧
    toClient.data = Spec.keyBlock K.hash (Spec.str k) sid (Spec.keyLetter .encryption .serverToClient) sid 0 ∧
    toClient.length = Spec.keyBlock K.hash (Spec.str k) sid (Spec.keyLetter .encryption .serverToClient) sid 1

/-- the result of a handshake, with what has been sent and is left of the input, is this outcome -/
def Spec.HasEnded (K : Crypto) (ident : Bytes) (rng : Tape) (res : R HandshakeError HostClient)
    (sent rest : Bytes) :
    Spec.Ended → Prop
  | .fails w to => (∃ e, res = err e ∧ Spec.Means e w) ∧ Spec.Answered K ident rng to sent
  | .panics to => res = R.panic ∧ Spec.Answered K ident rng to sent
  | .session a rest' => rest = rest' ∧ Spec.Answered K ident rng (some a) sent ∧
    ∃ c, res = ok c ∧ Spec.Agreed K ident rng a c.sessionIdentifier (Spec.keysOf c.receiveCipher)
      (Spec.keysOf c.sendCipher) ∧ c.receiveCipher.counter = 3 ∧ c.sendCipher.counter = 3

theorem Spec.SecretOf.unique {rng : Tape} {x y : Bytes} (h : Spec.SecretOf rng x) (h' : Spec.SecretOf rng y) :
    x = y := by
  obtain ⟨n, h1, rfl⟩ := h
  obtain ⟨n', h1', rfl⟩ := h'
  rw [leastPad_unique h1 h1']

theorem Spec.HashOf.unique {K : Crypto} {ident secret : Bytes} {a : Spec.Asked} {x y : Bytes}
    (h : Spec.HashOf K ident secret a x) (h' : Spec.HashOf K ident secret a y) : x = y := by
  obtain ⟨e, h1, rfl⟩ := h
  obtain ⟨e', h1', rfl⟩ := h'
  rw [transcript_unique h1, transcript_unique h1']

/-- both are determined -/
theorem Spec.Agreed.unique {K : Crypto} {ident : Bytes} {rng : Tape} {q : Spec.Asked} {sid sid' : Bytes}
    {a b a' b' : Spec.Keys} (h : Spec.Agreed K ident rng q sid a b)
    (h' : Spec.Agreed K ident rng q sid' a' b') : sid = sid' ∧ a = a' ∧ b = b' := by
  obtain ⟨secret, k, h1, h4, h6, h7, h8, h9, h10⟩ := h
  obtain ⟨secret', k', h1', h4', h6', h7', h8', h9', h10'⟩ := h'
  obtain rfl := h1.unique h1'
  obtain rfl := h4.unique h4'
  obtain rfl := mpintBody_unique h6 h6'
  obtain ⟨a1, a2⟩ := a
  obtain ⟨b1, b2⟩ := b
  obtain ⟨a1', a2'⟩ := a'
  obtain ⟨b1', b2'⟩ := b'
  simp only at h7 h8 h9 h10 h7' h8' h9' h10'
  exact ⟨rfl, by rw [h7, h8, h7', h8'], by rw [h9, h10, h9', h10']⟩

theorem Spec.Padded.unique {rng rng1 rng2 : Tape} {p x y : Bytes} (h : Spec.Padded rng p x rng1)
    (h' : Spec.Padded rng p y rng2) : x = y ∧ rng1 = rng2 := by
  obtain ⟨n, h1, h2, rfl⟩ := h
  obtain ⟨n', h1', h2', rfl⟩ := h'
  obtain rfl := leastPad_unique h1 h1'
  exact ⟨by rw [h2.bytes, h2'.bytes], rfl⟩

/-- C99: what the server sends is determined, too -/
theorem C99_sent_once (K : Crypto) (ident : Bytes) (rng : Tape) (to : Option Spec.Asked) (x y : Bytes)
    (h : Spec.Answered K ident rng to x) (h' : Spec.Answered K ident rng to y) : x = y := by
  obtain ⟨raw0, rng0, h0, h⟩ := h
  obtain ⟨raw0', rng0', h0', h'⟩ := h'
  obtain ⟨rfl, rfl⟩ := h0.unique h0'
  cases to with
  | none =>
    subst h
    exact h'.symm
  | some a =>
    obtain ⟨secret, hash, sig, raw1, rng1, raw2, rng2, rfl, h2, ⟨b, c, hb, hc, rfl⟩, h4, h5, rfl⟩ := h
    obtain ⟨secret', hash', sig', raw1', rng1', raw2', rng2', rfl, h2', ⟨b', c', hb', hc', rfl⟩, h4', h5', rfl⟩ := h'
    obtain rfl := h2.unique h2'
    obtain rfl := mpintBody_unique hb hb'
    obtain rfl := mpintBody_unique hc hc'
    obtain ⟨rfl, rfl⟩ := h4.unique h4'
    obtain ⟨rfl, rfl⟩ := h5.unique h5'
    rfl

theorem Replied.shakes {K : Crypto} {ident id pay secret cp r2 raw1 raw2 : Bytes} {s : IoSt} {x : Spec.Ended}
    (h : Replied K 65536 ident s id pay secret cp r2 raw1 raw2)
    (hx : Spec.ReadNext r2 (some ⟨id, pay, cp⟩) (Spec.Third ⟨id, pay, cp⟩) x) : Spec.Shakes s.inp x := by
  obtain ⟨o, r, pay2, ⟨⟨r0, h1, h2⟩, hk⟩, hN, hn, hg⟩ := h.reached
  exact .greeting ((C21_exact _ _ _).mp h1) (.packet h2 (.kexInit (reads_iff.mp hk) (acceptable_iff.mpr hN)
    (.packet hn (.key hg.2 (reads_iff.mp hg.1) hx))))

theorem hashOf_theHash (K : Crypto) (ident id pay secret cp : Bytes) :
    Spec.HashOf K ident secret ⟨id, pay, cp⟩ (theHash K ident id pay secret cp) := by
  refine ⟨transcript (transcriptOf K ident id pay secret cp), ?_, theHash_eq ..⟩
  have ht := transcript_spec (transcriptOf K ident id pay secret cp)
  rw [← show kexPayload = Spec.serverKexInit from C30_kexInit]
  exact ht

theorem Replied.agreed {K : Crypto} {ident id pay secret cp r2 raw1 raw2 : Bytes} {s : IoSt}
    (h : Replied K 65536 ident s id pay secret cp r2 raw1 raw2) :
    Spec.Agreed K ident s.rng ⟨id, pay, cp⟩ (theHash K ident id pay secret cp)
      (Spec.keysOf (sessionOf K (K.dhShared secret cp) (theHash K ident id pay secret cp)).receiveCipher)
      (Spec.keysOf (sessionOf K (K.dhShared secret cp) (theHash K ident id pay secret cp)).sendCipher) := by
  obtain ⟨k, hk, hs⟩ := h.random
  rw [show kexPayload = Spec.serverKexInit from C30_kexInit] at hk
  exact ⟨secret, _, ⟨k, hk, hs⟩, hashOf_theHash .., mpBody_spec _, rfl, rfl, rfl, rfl⟩

theorem Replied.answered {K : Crypto} {ident id pay secret cp r2 raw0 raw1 raw2 : Bytes} {s : IoSt} {k0 : Nat}
    (h : Replied K 65536 ident s id pay secret cp r2 raw1 raw2)
    (hk : Spec.LeastPad .b8 true kexPayload.length k0)
    (hp : Spec.PacketOf .b8 true kexPayload (s.rng.bytes k0) raw0) :
    Spec.Answered K ident s.rng (some ⟨id, pay, cp⟩) (ident ++ Spec.crlf ++ raw0 ++ (raw1 ++ raw2)) := by
  obtain ⟨k0', k1, k2, hk', hs, ⟨h1, h2⟩, h3, h4⟩ := h.sends
  obtain rfl := leastPad_unique hk hk'
  obtain ⟨sig, hg, hsig⟩ := reply_eq K (K.dhPublic secret) (theHash K ident id pay secret cp)
  rw [hsig] at h1 h2
  rw [show kexPayload = Spec.serverKexInit from C30_kexInit] at hp hk
  exact ⟨raw0, _, ⟨k0, hk, hp, rfl⟩, secret, _, sig, raw1, _, raw2, _, hs, hashOf_theHash .., hg,
    ⟨k1, h1, h2, rfl⟩, ⟨k2, h3, h4, rfl⟩, by simp⟩

/-- C99: the handshake ends with the outcome that the specification gives for the stream of the client, and the
server has sent what belongs to this outcome (if writes do not fail) -/
theorem C99_outcome (K : Crypto) (ident : Bytes) (s : IoSt) (hid : Spec.Fits ident) (hw : s.wcap = none) :
    ∃ x sent, Spec.Shakes s.inp x ∧ (Host.handleNewClient K ident s).2.out = s.out ++ sent ∧
      Spec.HasEnded K ident s.rng (Host.handleNewClient K ident s).1 sent
        (Host.handleNewClient K ident s).2.inp x := by
  obtain ⟨k0, raw, hk, hp, ho⟩ := Host.outcome_pad K s hid
  have hp' := hp
  have hk' := hk
  rw [show kexPayload = Spec.serverKexInit from C30_kexInit] at hp' hk'
  have first : Spec.Answered K ident s.rng none (ident ++ Spec.crlf ++ raw) :=
    ⟨raw, _, ⟨k0, hk', hp', rfl⟩, rfl⟩
  revert ho
  generalize (Host.handleNewClient K ident s).1 = res
  generalize (Host.handleNewClient K ident s).2 = s'
  intro ho
  have greet : ∀ {id r : Bytes} {x}, Ident.parseStream s.inp = ok (id, r) →
      Spec.ReadNext r none (Spec.First id) x → Spec.Shakes s.inp x :=
    fun h => .greeting ((C21_exact _ _ _).mp h)
  have second : ∀ {id pay o r x}, Reached 65536 s id pay o r → Negotiated o →
      Spec.ReadNext r none (Spec.Second id pay) x → Spec.Shakes s.inp x := by
    rintro id pay o r x ⟨⟨r0, h1, h2⟩, hk⟩ hN hx
    exact greet h1 (.packet h2 (.kexInit (reads_iff.mp hk) (acceptable_iff.mpr hN) hx))
  cases ho with
  | helloWrite _ _ h | replyWrite _ _ _ _ _ _ _ _ _ _ h => exact absurd hw h
  | early e _ _ hout _ _ h =>
    cases h with
    | ident h => exact ⟨_, _, .ident ((C21_errors _ _).mp h), hout, ⟨_, rfl, .ident _⟩, first⟩
    | packet h g => exact ⟨_, _, greet h (.refused g), hout, ⟨_, rfl, .packet _⟩, first⟩
    | malformed h g k =>
      exact ⟨_, _, greet h (.packet g (.malformed ((C102_errors _ _).mp k))), hout, ⟨_, rfl, .malformed _⟩, first⟩
    | other h g k l =>
      exact ⟨_, _, greet h (.packet g (.other (reads_iff.mp k) l)), hout, ⟨_, rfl, .notKexInit⟩, first⟩
  | window0 id r _ h g hout => exact ⟨_, _, greet h (.length g), hout, rfl, first⟩
  | unsupported id pay o r _ h g hout =>
    obtain ⟨⟨r0, h1, h2⟩, hk⟩ := h
    exact ⟨_, _, greet h1 (.packet h2 (.algorithms (reads_iff.mp hk) (fun h => g (acceptable_iff.mp h)))),
      hout, ⟨_, rfl, .algorithms⟩, first⟩
  | noKey id pay o r e _ h hN hout _ _ hu =>
    exact ⟨_, _, second h hN (.refused hu), hout, ⟨_, rfl, .packet _⟩, first⟩
  | window1 id pay o r _ h hN hout hl => exact ⟨_, _, second h hN (.length hl), hout, rfl, first⟩
  | badKey id pay o r pay2 r2 _ h hN hout hn hg =>
    exact ⟨_, _, second h hN (.packet hn (.noKey fun cp hl hr => hg cp ⟨reads_iff.mpr hr, hl⟩)), hout, rfl, first⟩
  | noNewKeys id pay secret cp r2 raw1 raw2 e _ hD hout _ _ hu =>
    exact ⟨_, _, hD.shakes (.refused hu), by rw [hout, List.append_assoc], ⟨_, rfl, .packet _⟩, hD.answered hk hp⟩
  | window2 id pay secret cp r2 raw1 raw2 _ hD hout hl =>
    exact ⟨_, _, hD.shakes (.length hl), by rw [hout, List.append_assoc], rfl, hD.answered hk hp⟩
  | badNewKeys id pay secret cp r2 raw1 raw2 pay3 r3 e _ hD hout hn hm =>
    exact ⟨_, _, hD.shakes (.packet hn (.malformed (noMessage_of hm))), by rw [hout, List.append_assoc], rfl,
      hD.answered hk hp⟩
  | otherMessage id pay secret cp r2 raw1 raw2 pay3 r3 m _ hD hout hn hm hne =>
    exact ⟨_, _, hD.shakes (.packet hn (.other (reads_iff.mp hm) hne)), by rw [hout, List.append_assoc],
      ⟨_, rfl, .notNewKeys⟩, hD.answered hk hp⟩
  | done id pay secret cp r2 raw1 raw2 pay3 r3 _ hD hout hn hm hi =>
    exact ⟨.session ⟨id, pay, cp⟩ r3, _, hD.shakes (.packet hn (.newKeys (reads_iff.mp hm))),
      by rw [hout, List.append_assoc], hi, hD.answered hk hp, _, rfl, hD.agreed, rfl, rfl⟩

/-- C99: a handshake has the outcome `x` if and only if the specification says so -/
theorem C99_exact (K : Crypto) (ident : Bytes) (s : IoSt) (hid : Spec.Fits ident) (hw : s.wcap = none) :
    (∀ w, (∃ e, (Host.handleNewClient K ident s).1 = err e ∧ Spec.Means e w) ↔
      ∃ b, Spec.Shakes s.inp (.fails w b)) ∧
    ((Host.handleNewClient K ident s).1 = R.panic ↔ ∃ b, Spec.Shakes s.inp (.panics b)) ∧
    ((∃ c, (Host.handleNewClient K ident s).1 = ok c) ↔
      ∃ a rest, Spec.Shakes s.inp (.session a rest)) := by
  obtain ⟨x, sent, hx, _, hh⟩ := C99_outcome K ident s hid hw
  have one : ∀ {y}, Spec.Shakes s.inp y → y = x := fun h => C99_one_outcome _ _ _ h hx
  revert hh
  generalize (Host.handleNewClient K ident s).1 = res
  intro hh
  cases x with
  | fails w b =>
    obtain ⟨⟨e, rfl, he⟩, _⟩ := hh
    refine ⟨fun w' => ⟨?_, ?_⟩, ⟨?_, ?_⟩, ⟨?_, ?_⟩⟩
    · rintro ⟨e', h, he'⟩
      cases h
      have : w' = w := by cases he <;> cases he' <;> rfl
      exact ⟨b, this ▸ hx⟩
    · rintro ⟨b', h⟩
      cases one h
      exact ⟨e, rfl, he⟩
    · intro h; cases h
    · rintro ⟨b', h⟩; cases one h
    · rintro ⟨c, h⟩; cases h
    · rintro ⟨_, _, h⟩; cases one h
  | panics b =>
    obtain ⟨rfl, _⟩ := hh
    refine ⟨fun w' => ⟨?_, ?_⟩, ⟨?_, ?_⟩, ⟨?_, ?_⟩⟩
    · rintro ⟨e', h, he'⟩; cases h
    · rintro ⟨b', h⟩; cases one h
    · intro _; exact ⟨b, hx⟩
    · intro _; rfl
    · rintro ⟨c, h⟩; cases h
    · rintro ⟨_, _, h⟩; cases one h
  | session a rest =>
    obtain ⟨_, _, c, rfl, _⟩ := hh
    refine ⟨fun w' => ⟨?_, ?_⟩, ⟨?_, ?_⟩, ⟨?_, ?_⟩⟩
    · rintro ⟨e', h, he'⟩; cases h
    · rintro ⟨b', h⟩; cases one h
    · intro h; cases h
    · rintro ⟨b', h⟩; cases one h
    · intro _; exact ⟨_, _, hx⟩
    · intro _; exact ⟨c, rfl⟩

/-- a client that gets so far sends its identification string and a KEXINIT with acceptable algorithms -/
theorem start_shakes {b : Bool} {r : Bytes} {x : Spec.Ended}
    (h : Spec.ReadNext r none (Spec.Second (b! "SSH-2.0-c")
      (Spec.encode (.kexInit { guessKexInit with firstKexPacketFollows := b }))) x) :
    Spec.Shakes (startBytes b ++ r) x := by
  obtain ⟨⟨r0, h1, h2⟩, hk⟩ := Reached.start (s := ⟨startBytes b ++ r, [], none, fun _ => 0, []⟩) (start_client b r)
  exact .greeting ((C21_exact _ _ _).mp h1) (.packet h2 (.kexInit (reads_iff.mp hk)
    (acceptable_iff.mpr (negotiated_iff.mpr ⟨_, _, _, _, guess_negotiation b⟩)) h))

theorem key_reads {cp : Bytes} (h : cp.length = 32) :
    Spec.Reads (Spec.encode (.kexEcdhInit ⟨cp⟩)) (.kexEcdhInit ⟨cp⟩) :=
  reads_iff.mp (GoodKey.iff.mpr ⟨h, rfl⟩).1

theorem key_short {cp : Bytes} (h : cp.length = 32) :
    (Spec.encode (.kexEcdhInit ⟨cp⟩)).length ≤ 35000 := by
  show (30 :: Spec.str cp).length ≤ 35000
  rw [List.length_cons, str_length]
  omega

/-- the four packets of a complete handshake, with the first bytes of the session after them -/
example (cp rest : Bytes) (h : cp.length = 32) :
    Spec.Shakes (startBytes false ++ (zpkt (Spec.encode (.kexEcdhInit ⟨cp⟩)) ++ (zpkt [21] ++ rest)))
      (.session ⟨b! "SSH-2.0-c", Spec.encode (.kexInit plainKexInit), cp⟩ rest) :=
  start_shakes (.packet (zpkt_next _ (key_short h)) (.key h (key_reads h)
    (.packet (zpkt_next _ (by decide)) (.newKeys (reads_iff.mp (newKeys_iff.mpr rfl))))))

/-- the client hangs up after its key -/
example (cp : Bytes) (h : cp.length = 32) :
    Spec.Shakes (startBytes false ++ (zpkt (Spec.encode (.kexEcdhInit ⟨cp⟩)) ++ []))
      (.fails (.packet .io) (some ⟨b! "SSH-2.0-c", Spec.encode (.kexInit plainKexInit), cp⟩)) :=
  start_shakes (.packet (zpkt_next _ (key_short h)) (.key h (key_reads h) (.refused (.short (by decide)))))

/-- another message than NEWKEYS -/
example (cp rest : Bytes) (h : cp.length = 32) :
    Spec.Shakes (startBytes false ++ (zpkt (Spec.encode (.kexEcdhInit ⟨cp⟩)) ++
      (zpkt (Spec.encode (.ignore ⟨[]⟩)) ++ rest)))
      (.fails .notNewKeys (some ⟨b! "SSH-2.0-c", Spec.encode (.kexInit plainKexInit), cp⟩)) :=
  start_shakes (.packet (zpkt_next _ (key_short h)) (.key h (key_reads h)
    (.packet (zpkt_next _ (by decide)) (.other (m := .ignore ⟨[]⟩) (reads_iff.mp (by decide)) (by simp)))))

/-- a web browser -/
example : Spec.Shakes (b! "GET / HTTP/1.1\r\n\r\n") (.fails (.ident .io) none) :=
  .ident ((C21_errors _ _).mp (by decide))

end Nora
