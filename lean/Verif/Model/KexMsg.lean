import Verif.Model.Data
/-
Model of nora_ssh_core/src/message/key_exchange/mod.rs and
nora_ssh_core/src/message/key_exchange/ecdh.rs (messages; the digest part is in Model/Kex.lean).
-/
namespace Nora
open R

namespace Kex

/-- `KeyExchangeInit`, key_exchange/mod.rs:12-25 -/
structure KexInit where
  cookie : Bytes
  kexAlgorithms : NameList
  serverHostKeyAlgorithms : NameList
  encryptionAlgorithmsClientToServer : NameList
  encryptionAlgorithmsServerToClient : NameList
  macAlgorithmsClientToServer : NameList
  macAlgorithmsServerToClient : NameList
  compressionAlgorithmsClientToServer : NameList
  compressionAlgorithmsServerToClient : NameList
  languagesClientToServer : NameList
  languagesServerToClient : NameList
  firstKexPacketFollows : Bool
  deriving DecidableEq, Repr

/-- key_exchange/mod.rs:94-99 -/
inductive KexInitParseError where
  | truncated | noTrailingZero | unread | invalidNameList (e : InvalidNameList)
  deriving DecidableEq, Repr

/-- the closure `name_list` of `KeyExchangeInit::parse`, key_exchange/mod.rs:31-38 -/
def KexInit.nameListE (data : Bytes) : R KexInitParseError (NameList × Bytes) := do
  let (list, data) ← (nameList data).okOr KexInitParseError.truncated
  let list ← list.mapErr KexInitParseError.invalidNameList
  .ok (list, data)

/-- `KeyExchangeInit::parse`, key_exchange/mod.rs:28-73 -/
def KexInit.parse (data : Bytes) : R KexInitParseError KexInit := do
  let split := fun data i => (split data i).okOr KexInitParseError.truncated
  let (cookie, data) ← split data 16
  let (kexAlgorithms, data) ← nameListE data
  let (serverHostKeyAlgorithms, data) ← nameListE data
  let (encryptionAlgorithmsClientToServer, data) ← nameListE data
  let (encryptionAlgorithmsServerToClient, data) ← nameListE data
  let (macAlgorithmsClientToServer, data) ← nameListE data
  let (macAlgorithmsServerToClient, data) ← nameListE data
  let (compressionAlgorithmsClientToServer, data) ← nameListE data
  let (compressionAlgorithmsServerToClient, data) ← nameListE data
  let (languagesClientToServer, data) ← nameListE data
  let (languagesServerToClient, data) ← nameListE data
  let (firstKexPacketFollows, data) ← split data 1
  let (zero, data) ← split data 4
  guardE (zero == [0, 0, 0, 0]) .noTrailingZero
  guardE data.isEmpty .unread
  -- `cookie.try_into().unwrap()`
  assertP (cookie.length == 16)
  let f ← idxAt firstKexPacketFollows 0
  .ok {
    cookie, kexAlgorithms, serverHostKeyAlgorithms,
    encryptionAlgorithmsClientToServer, encryptionAlgorithmsServerToClient,
    macAlgorithmsClientToServer, macAlgorithmsServerToClient,
    compressionAlgorithmsClientToServer, compressionAlgorithmsServerToClient,
    languagesClientToServer, languagesServerToClient,
    firstKexPacketFollows := f != 0 }

/-- `KeyExchangeInit::serialize`, key_exchange/mod.rs:75-90 -/
def KexInit.serialize (o : KexInit) (buf : Bytes) : R Unit (Nat × Bytes) := do
  let (a, w1, buf) ← makeRaw buf o.cookie
  let (b, w2, buf) ← makeString2 buf o.kexAlgorithms.str
  let (c, w3, buf) ← makeString2 buf o.serverHostKeyAlgorithms.str
  let (d, w4, buf) ← makeString2 buf o.encryptionAlgorithmsClientToServer.str
  let (e, w5, buf) ← makeString2 buf o.encryptionAlgorithmsServerToClient.str
  let (f, w6, buf) ← makeString2 buf o.macAlgorithmsClientToServer.str
  let (g, w7, buf) ← makeString2 buf o.macAlgorithmsServerToClient.str
  let (h, w8, buf) ← makeString2 buf o.compressionAlgorithmsClientToServer.str
  let (i, w9, buf) ← makeString2 buf o.compressionAlgorithmsServerToClient.str
  let (j, w10, buf) ← makeString2 buf o.languagesClientToServer.str
  let (k, w11, buf) ← makeString2 buf o.languagesServerToClient.str
  let (l, w12, buf) ← makeBool buf o.firstKexPacketFollows
  let (m, w13, buf) ← makeUint32 buf 0
  .ok (a + b + c + d + e + f + g + h + i + j + k + l + m,
    w1 ++ (w2 ++ (w3 ++ (w4 ++ (w5 ++ (w6 ++ (w7 ++ (w8 ++ (w9 ++ (w10 ++ (w11 ++ (w12 ++
      (w13 ++ buf)))))))))))))

/-- key_exchange/mod.rs:116-118 -/
inductive NewKeysParseError where
  | unread
  deriving DecidableEq, Repr

/-- `NewKeys::parse`, key_exchange/mod.rs:104-108 -/
def NewKeys.parse (data : Bytes) : R NewKeysParseError Unit := guardE (data.length == 0) .unread

/-- `NewKeys::serialize`, key_exchange/mod.rs:110-112 -/
def NewKeys.serialize (buf : Bytes) : R Unit (Nat × Bytes) := .ok (0, buf)

/-- `KeyExchangeEcdhInit`, ecdh.rs:3-5 -/
structure EcdhInit where
  clientEphermalPublicKey : Bytes
  deriving DecidableEq, Repr

/-- ecdh.rs:23-26 -/
inductive EcdhInitParseError where
  | truncated | unread
  deriving DecidableEq, Repr

/-- `KeyExchangeEcdhInit::parse`, ecdh.rs:8-14 -/
def EcdhInit.parse (data : Bytes) : R EcdhInitParseError EcdhInit := do
  let (clientEphermalPublicKey, data) ← (parseString data).okOr .truncated
  guardE data.isEmpty .unread
  .ok { clientEphermalPublicKey }

/-- `KeyExchangeEcdhInit::serialize`, ecdh.rs:16-19 -/
def EcdhInit.serialize (o : EcdhInit) (buf : Bytes) : R Unit (Nat × Bytes) := do
  let (a, w1, buf) ← makeString2 buf o.clientEphermalPublicKey
  .ok (a, w1 ++ buf)

/-- `KeyBlob`, ecdh.rs:92-95 -/
structure KeyBlob where
  identifier : Bytes
  q : Bytes
  deriving DecidableEq, Repr

/-- `KeyBlob::parse`, ecdh.rs:98-102 -/
def KeyBlob.parse (data : Bytes) : R Unit KeyBlob := do
  let (identifier, data) ← parseString data
  let (q, data) ← parseString data
  guardE data.isEmpty ()
  .ok { identifier, q }

/-- `KeyBlob::serialize`, ecdh.rs:104-108 -/
def KeyBlob.serialize (o : KeyBlob) (buf : Bytes) : R Unit (Nat × Bytes × Bytes) := do
  let (a, w1, buf) ← makeString2 buf o.identifier
  let (b, w2, buf) ← makeString2 buf o.q
  .ok (a + b, w1 ++ w2, buf)

/-- `Key`, ecdh.rs:73-76 -/
structure Key where
  name : Bytes
  blob : KeyBlob
  deriving DecidableEq, Repr

/-- `Key::parse`, ecdh.rs:79-83. Note line 82 tests the data *before* the blob, as written. -/
def Key.parse (data : Bytes) : R Unit Key := do
  let (name, data) ← parseString data
  let blob ← KeyBlob.parse data
  guardE data.isEmpty ()
  .ok { name, blob }

/-- `Key::serialize`, ecdh.rs:85-89 -/
def Key.serialize (o : Key) (buf : Bytes) : R Unit (Nat × Bytes × Bytes) := do
  let (a, w1, buf) ← makeString2 buf o.name
  let (b, w2, buf) ← o.blob.serialize buf
  .ok (a + b, w1 ++ w2, buf)

/-- `SignatureBlob`, ecdh.rs:136-139 -/
structure SignatureBlob where
  r : Bytes
  s : Bytes
  deriving DecidableEq, Repr

/-- `SignatureBlob::parse`, ecdh.rs:142-146 -/
def SignatureBlob.parse (data : Bytes) : R Unit SignatureBlob := do
  let (r, data) ← parseString data
  let (s, data) ← parseString data
  guardE data.isEmpty ()
  .ok { r, s }

/-- `SignatureBlob::serialize`, ecdh.rs:148-152 -/
def SignatureBlob.serialize (o : SignatureBlob) (buf : Bytes) :
    R Unit (Nat × Bytes × Bytes) := do
  let (a, w1, buf) ← makePosMpint2 buf o.r
  let (b, w2, buf) ← makePosMpint2 buf o.s
  .ok (a + b, w1 ++ w2, buf)

/-- `Signature`, ecdh.rs:111-114 -/
structure Signature where
  name : Bytes
  blob : SignatureBlob
  deriving DecidableEq, Repr

/-- `Signature::parse`, ecdh.rs:117-122 -/
def Signature.parse (data : Bytes) : R Unit Signature := do
  let (name, data) ← parseString data
  let (blob, data) ← parseString data
  let blob ← SignatureBlob.parse blob
  guardE data.isEmpty ()
  .ok { name, blob }

/-- `Signature::serialize`, ecdh.rs:124-133 -/
def Signature.serialize (o : Signature) (buf : Bytes) : R Unit (Nat × Bytes × Bytes) := do
  let (a, w1, buf) ← makeString2 buf o.name
  guardE (buf.length ≥ 4) ()
  let (lenbuf, buf) ← splitAtP buf 4
  let (b, w2, buf) ← o.blob.serialize buf
  let (_, wl, wr) ← (makeUint32 lenbuf (← u32TryFrom b)).unwrap
  .ok (a + 4 + b, w1 ++ (wl ++ wr ++ w2), buf)

/-- `KeyExchangeEcdhReply`, ecdh.rs:28-32 -/
structure EcdhReply where
  serverPublicKey : Key
  serverEphermalPublicKey : Bytes
  exchangeHashSignature : Signature
  deriving DecidableEq, Repr

/-- ecdh.rs:156-160 -/
inductive EcdhReplyParseError where
  | truncated | unread | badData
  deriving DecidableEq, Repr

/-- `KeyExchangeEcdhReply::parse`, ecdh.rs:35-51 -/
def EcdhReply.parse (data : Bytes) : R EcdhReplyParseError EcdhReply := do
  let (serverPublicKey, data) ← (parseString data).okOr EcdhReplyParseError.truncated
  let serverPublicKey ← (Key.parse serverPublicKey).okOr EcdhReplyParseError.badData
  let (serverEphermalPublicKey, data) ← (parseString data).okOr EcdhReplyParseError.truncated
  let (exchangeHashSignature, data) ← (parseString data).okOr EcdhReplyParseError.truncated
  let exchangeHashSignature ←
    (Signature.parse exchangeHashSignature).okOr EcdhReplyParseError.badData
  guardE data.isEmpty .unread
  .ok { serverPublicKey, serverEphermalPublicKey, exchangeHashSignature }

/-- `KeyExchangeEcdhReply::serialize`, ecdh.rs:53-70 -/
def EcdhReply.serialize (o : EcdhReply) (buf : Bytes) : R Unit (Nat × Bytes) := do
  -- public key
  guardE (buf.length ≥ 4) ()
  let (lenbuf, buf) ← splitAtP buf 4
  let (a, w1, buf) ← o.serverPublicKey.serialize buf
  let (_, wl1, wr1) ← (makeUint32 lenbuf (← u32TryFrom a)).unwrap
  -- ephermal key
  let (b, w2, buf) ← makeString2 buf o.serverEphermalPublicKey
  -- signature
  guardE (buf.length ≥ 4) ()
  let (lenbuf, buf) ← splitAtP buf 4
  let (c, w3, buf) ← o.exchangeHashSignature.serialize buf
  let (_, wl2, wr2) ← (makeUint32 lenbuf (← u32TryFrom c)).unwrap
  .ok (4 + a + b + 4 + c, (wl1 ++ wr1 ++ w1) ++ (w2 ++ ((wl2 ++ wr2 ++ w3) ++ buf)))

end Kex
end Nora
