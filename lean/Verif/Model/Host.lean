import Verif.Model.Kex
import Verif.Model.Identifier
import Verif.Model.PacketIo
/-
Model of `Host::handle_new_client`, nora_ssh/src/host.rs:91-288. The function is cut into the parts
between its comments; the cuts are at the line ranges given.
-/
namespace Nora
open R

variable {ε : Type}

/-- `into_kex_init`, message/mod.rs:186 -/
def Message.intoKexInit : Message → R Unit Kex.KexInit
  | .kexInit o => .ok o
  | _ => .err ()

/-- `into_kex_ecdh_init`, message/mod.rs:187 -/
def Message.intoKexEcdhInit : Message → R Unit Kex.EcdhInit
  | .kexEcdhInit o => .ok o
  | _ => .err ()

/-- `into_new_keys`, message/mod.rs:188 -/
def Message.intoNewKeys : Message → R Unit Unit
  | .newKeys => .ok ()
  | _ => .err ()

/-- the closure `|buf| msg.serialize(buf).unwrap().0.len()` given to `Packet::wrap`: the length, and
the new content of `buf` -/
def Message.write (m : Message) (buf : Bytes) : R ε (Nat × Bytes) := do
  let (w, rest) ← (m.serialize buf).unwrap
  .ok (w.length, w ++ rest)

/-- `HandleNewClientError`, host.rs:290-301 (`Read` is never constructed) -/
inductive HandshakeError where
  | parseIdentifier (e : ParseIdentError)
  | messageParse (e : MessageParseError)
  | packetParse (e : PacketParseError)
  | expectedKeyExchangeInit
  | unsupportedAlgorithms
  | expectedKeys
  | write
  deriving DecidableEq, Repr

/-- `HostClient`, host.rs:375-379 -/
structure HostClient where
  receiveCipher : ChaCha
  sendCipher : ChaCha
  sessionIdentifier : Bytes
  deriving DecidableEq, Repr

/-- `ALGORITHM_NAMES`, key_exchange.rs:6 -/
def algorithmNames : List Bytes := [b! "curve25519-sha256"]

/-- `CIPHER_NAMES`, cipher/mod.rs:7 -/
def cipherNames : List Bytes := [b! "chacha20-poly1305@openssh.com"]

/-- `<p256::NistP256 as SignKey>::name`, host.rs:393-397 -/
def hostKeyName : Bytes := b! "ecdsa-sha2-nistp256"

namespace Host

/-- the KEXINIT of the server, host.rs:121-138. The `try_into().unwrap()`s of the literals are
evaluated (`Props.Handshake` checks that none of them fails). -/
def kexInit : Kex.KexInit where
  cookie := b! "nomnommunchmunch"
  kexAlgorithms := ⟨b! "curve25519-sha256"⟩
  serverHostKeyAlgorithms := ⟨b! "ecdsa-sha2-nistp256"⟩
  encryptionAlgorithmsClientToServer := ⟨b! "chacha20-poly1305@openssh.com"⟩
  encryptionAlgorithmsServerToClient := ⟨b! "chacha20-poly1305@openssh.com"⟩
  compressionAlgorithmsClientToServer := ⟨b! "none"⟩
  compressionAlgorithmsServerToClient := ⟨b! "none"⟩
  macAlgorithmsClientToServer := ⟨b! "none"⟩
  macAlgorithmsServerToClient := ⟨b! "none"⟩
  languagesClientToServer := ⟨[]⟩
  languagesServerToClient := ⟨[]⟩
  firstKexPacketFollows := false

/-- host.rs:111-149: send the identification string and KEXINIT; returns `host_pkt` -/
def hello (ident : Bytes) : M HandshakeError Packet := do
  (Ident.send ident).mapErr (fun _ => .write)
  let hostPkt ← M.withRng (Packet.wrap (List.replicate 256 0) .b8 true
    (Message.write (.kexInit kexInit)))
  let raw ← M.lift hostPkt.asRaw
  (M.writeAll raw).mapErr (fun _ => .write)
  pure hostPkt

/-- `list.iter().any(|s| names.iter().any(|&t| t == s))`, host.rs:169-184. The iterator is run to its
end first (it never panics on a list that was parsed, C10). -/
def anyName (l : NameList) (names : List Bytes) : R ε Bool := do
  let it ← l.iter.unwrap
  .ok (it.any (fun s => names.any (fun t => t == s)))

/-- the condition of host.rs:169-184, which is evaluated to the first failing list -/
def supported (msg : Kex.KexInit) : R ε Bool := do
  if !(← anyName msg.kexAlgorithms algorithmNames) then .ok false
  else if !(← anyName msg.serverHostKeyAlgorithms [hostKeyName]) then .ok false
  else if !(← anyName msg.encryptionAlgorithmsClientToServer cipherNames) then .ok false
  else if !(← anyName msg.encryptionAlgorithmsServerToClient cipherNames) then .ok false
  else .ok true

/-- host.rs:151-189: receive the identification string and KEXINIT and check the algorithms; returns
the digest so far and the content of `pkt_buf` -/
def receiveHello (ident : Bytes) (hostPkt : Packet) (pktBuf : Bytes) :
    M HandshakeError (Bytes × Bytes) := do
  let clientIdent ← Ident.parse.mapErr .parseIdentifier
  let h ← M.lift (KexDigest.clientId [] clientIdent)
  let h ← M.lift (KexDigest.serverId h ident)
  let pkt ← (PacketIo.parse pktBuf true .b8).mapErr .packetParse
  let payload ← M.lift pkt.payload
  let h ← M.lift (KexDigest.clientKexInit h payload)
  let hostPayload ← M.lift hostPkt.payload
  let h ← M.lift (KexDigest.serverKexInit h hostPayload)
  let msg ← M.lift ((Message.parse payload).mapErr .messageParse)
  let msg ← M.lift (msg.intoKexInit.okOr .expectedKeyExchangeInit)
  if !(← M.lift (supported msg)) then M.fail .unsupportedAlgorithms
  else pure (h, pkt.data)

/-- host.rs:191-205: generate the ephemeral secret (32 random bytes) and receive the client's
ephemeral key; returns the secret, the client's key and the content of `pkt_buf` -/
def receiveKey (pktBuf : Bytes) : M HandshakeError (Bytes × Bytes × Bytes) := do
  let secret ← M.withRng (fun t => .ok (t.bytes 32, t.skip 32))
  let pkt ← (PacketIo.parse pktBuf true .b8).mapErr .packetParse
  let payload ← M.lift pkt.payload
  let msg ← M.lift (Message.parse payload).unwrap
  let msg ← M.lift msg.intoKexEcdhInit.unwrap
  M.lift (assertP (msg.clientEphermalPublicKey.length == 32))
  pure (secret, msg.clientEphermalPublicKey, pkt.data)

/-- `server_public_key`, host.rs:207-215 -/
def publicKey (K : Crypto) : Kex.Key :=
  { name := b! "ecdsa-sha2-nistp256", blob := { identifier := b! "nistp256", q := K.hostPoint } }

/-- the reply, host.rs:234-242 -/
def reply (K : Crypto) (serverPublic hash : Bytes) : Kex.EcdhReply :=
  { serverPublicKey := publicKey K
    serverEphermalPublicKey := serverPublic
    exchangeHashSignature :=
      { name := b! "ecdsa-sha2-nistp256", blob := { r := (K.sign hash).1, s := (K.sign hash).2 } } }

/-- host.rs:207-277: finish the exchange hash, send the reply, make the ciphers and send NEWKEYS;
returns the session and the content of `pkt_buf` -/
def sendReply (K : Crypto) (h secret clientPublic pktBuf : Bytes) :
    M HandshakeError (HostClient × Bytes) := do
  let serverPublic := K.dhPublic secret
  let (h, pktBuf) ← M.lift (KexDigest.hostKey h pktBuf (publicKey K))
  let h ← M.lift (KexDigest.clientEphermalKey h clientPublic)
  let h ← M.lift (KexDigest.serverEphermalKey h serverPublic)
  let shared := K.dhShared secret clientPublic
  let hash ← M.lift (KexDigest.secret K h shared)
  let keyMaterial ← M.lift (KeyMaterial.new shared hash)
  let pkt ← M.withRng (Packet.wrap pktBuf .b8 true
    (Message.write (.kexEcdhReply (reply K serverPublic hash))))
  let raw ← M.lift (pkt.intoRaw 0)
  (M.writeAll raw).mapErr (fun _ => .write)
  let receiveCipher ← M.lift (ChaCha.fromKeyMaterial K keyMaterial .clientToServer 3)
  let sendCipher ← M.lift (ChaCha.fromKeyMaterial K keyMaterial .serverToClient 3)
  let pkt ← M.withRng (Packet.wrap pkt.data .b8 true (Message.write .newKeys))
  let raw ← M.lift pkt.asRaw
  (M.writeAll raw).mapErr (fun _ => .write)
  pure ({ receiveCipher, sendCipher, sessionIdentifier := hash }, pkt.data)

/-- host.rs:278-284: receive NEWKEYS -/
def receiveNewKeys (pktBuf : Bytes) : M HandshakeError Unit := do
  let pkt ← (PacketIo.parse pktBuf true .b8).mapErr .packetParse
  let payload ← M.lift pkt.payload
  let msg ← M.lift (Message.parse payload).unwrap
  M.lift (msg.intoNewKeys.okOr .expectedKeys)

/-- host.rs:111-286, with the initial content of `pkt_buf` -/
def handshake (K : Crypto) (ident pktBuf : Bytes) : M HandshakeError HostClient := do
  let hostPkt ← hello ident
  let (h, pktBuf) ← receiveHello ident hostPkt pktBuf
  let (secret, clientPublic, pktBuf) ← receiveKey pktBuf
  let (client, pktBuf) ← sendReply K h secret clientPublic pktBuf
  receiveNewKeys pktBuf
  pure client

/-- `Host::handle_new_client`, host.rs:92-287; `pkt_buf` is 1 << 16 zeros (106-107) -/
def handleNewClient (K : Crypto) (ident : Bytes) : M HandshakeError HostClient :=
  handshake K ident (List.replicate (1 <<< 16) 0)

end Host

end Nora
