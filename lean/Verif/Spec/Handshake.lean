import Verif.Spec.Packet
import Verif.Spec.Kex
import Verif.Spec.Ident
/-
Specification of the handshake: RFC 4253 sections 4.2, 6 and 7. Only data types of the model are
used.
-/
namespace Nora.Spec

/-- the stream starts with a packet of at most `N` bytes that holds `payload`, followed by `rest` -/
def NextPacket (N : Nat) (stream payload rest : Bytes) : Prop :=
  ∃ raw, stream = raw ++ rest ∧ Framed .b8 true payload raw ∧ raw.length ≤ N

/-- the stream starts with a length field with a value that just does not fit `N` bytes together
with the field itself -/
def LengthInWindow (N : Nat) (stream : Bytes) : Prop :=
  ∃ n rest, stream = u32 n ++ rest ∧ 8 ≤ n ∧ n ≤ N ∧ N < 4 + n

/-- RFC 4253 section 7.1 for the KEXINITs of client and server: the algorithms for the key exchange,
the host key, and the encryption in both directions -/
def Negotiation (c s : Kex.KexInit) (kex hostKey toServer toClient : Bytes) : Prop :=
  (∃ a b, NameListOf a c.kexAlgorithms.str ∧ NameListOf b s.kexAlgorithms.str ∧
    negotiate a b = some kex) ∧
  (∃ a b, NameListOf a c.serverHostKeyAlgorithms.str ∧
    NameListOf b s.serverHostKeyAlgorithms.str ∧ negotiate a b = some hostKey) ∧
  (∃ a b, NameListOf a c.encryptionAlgorithmsClientToServer.str ∧
    NameListOf b s.encryptionAlgorithmsClientToServer.str ∧ negotiate a b = some toServer) ∧
  (∃ a b, NameListOf a c.encryptionAlgorithmsServerToClient.str ∧
    NameListOf b s.encryptionAlgorithmsServerToClient.str ∧ negotiate a b = some toClient)

/-- the payload of the KEXINIT of the server, RFC 4253 section 7.1: the cookie, the lists of algorithms for
key exchange, host keys, encryption, authentication and compression, no languages, no guess -/
def serverKexInit : Bytes :=
  20 :: (b! "nomnommunchmunch" ++ str (b! "curve25519-sha256") ++ str (b! "ecdsa-sha2-nistp256") ++
    str (b! "chacha20-poly1305@openssh.com") ++ str (b! "chacha20-poly1305@openssh.com") ++
    str (b! "none") ++ str (b! "none") ++ str (b! "none") ++ str (b! "none") ++ str [] ++ str [] ++
    [0, 0, 0, 0, 0])

/-- the payload of an ECDH reply (RFC 5656 section 4) -/
def replyBytes (hostKey serverEphemeral signature : Bytes) : Bytes :=
  31 :: (str hostKey ++ str serverEphemeral ++ str signature)

/-- the host key blob of an ECDSA key on P-256, RFC 5656 section 3.1 -/
def p256Key (point : Bytes) : Bytes :=
  str (b! "ecdsa-sha2-nistp256") ++ str (b! "nistp256") ++ str point

/-- the blob of an ECDSA signature on P-256, RFC 5656 section 3.1.2 -/
def P256Signature (r s e : Bytes) : Prop :=
  ∃ a b, MpintBody (beVal r) a ∧ MpintBody (beVal s) b ∧
    e = str (b! "ecdsa-sha2-nistp256") ++ str (str a ++ str b)

/-- the stream is a sequence of packets with these payloads, followed by `rest` -/
def Packets (N : Nat) : (stream : Bytes) → (payloads : List Bytes) → (rest : Bytes) → Prop
  | s, [], rest => s = rest
  | s, p :: ps, rest => ∃ s', NextPacket N s p s' ∧ Packets N s' ps rest

/-- the client sent its identification string `id` and its KEXINIT `o`, with payload `payload`,
followed by `rest`. Lines before the identification string and additional `S`s in front of it are
also accepted (see C20). -/
def KexInitSent (N : Nat) (inp id payload : Bytes) (o : Kex.KexInit) (rest : Bytes) : Prop :=
  IsIdent id ∧ WF (.kexInit o) ∧ Wire (.kexInit o) payload ∧ ∃ before k r, LineStart before ∧
    inp = before ++ List.replicate k 83 ++ id ++ crlf ++ r ∧ NextPacket N r payload rest

/-- the same, by a client that starts with its identification string -/
def ClientStart (N : Nat) (inp text payload : Bytes) (o : Kex.KexInit) (rest : Bytes) : Prop :=
  NoCrLf text ∧ 8 + text.length ≤ 253 ∧ WF (.kexInit o) ∧ Wire (.kexInit o) payload ∧
    ∃ r, inp = b! "SSH-2.0-" ++ text ++ crlf ++ r ∧ NextPacket N r payload rest

/-- RFC 4253 section 7.1: the client announced that a guessed packet follows, and the guess is wrong
because the preferred key exchange or host key algorithms of the two sides differ -/
def WrongGuess (c s : Kex.KexInit) : Prop :=
  c.firstKexPacketFollows = true ∧
    ((∃ a b t u, NameListOf (a :: t) c.kexAlgorithms.str ∧
        NameListOf (b :: u) s.kexAlgorithms.str ∧ a ≠ b) ∨
     (∃ a b t u, NameListOf (a :: t) c.serverHostKeyAlgorithms.str ∧
        NameListOf (b :: u) s.serverHostKeyAlgorithms.str ∧ a ≠ b))

/-- the payloads a client may send between KEXINIT and ECDH_INIT, all of which the server has to
ignore: a wrongly guessed packet (numbers 30 to 49), then IGNORE messages -/
def Between (c s : Kex.KexInit) (payloads : List Bytes) : Prop :=
  ∃ guess ignored, payloads = guess ++ ignored ∧
    (∀ p ∈ ignored, ∃ d, Fits d ∧ p = encode (.ignore ⟨d⟩)) ∧
    ((¬ WrongGuess c s ∧ guess = []) ∨
      (WrongGuess c s ∧ ∃ t b, 30 ≤ t ∧ t ≤ 49 ∧ guess = [t :: b]))

end Nora.Spec
