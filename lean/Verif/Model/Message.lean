import Verif.Model.Channel
import Verif.Model.UserAuth
import Verif.Model.KexMsg
/-
Model of nora_ssh_core/src/message/mod.rs and nora_ssh_core/src/message/service.rs.
-/
namespace Nora
open R

namespace Msg

/-- message/mod.rs:194-198 -/
structure Disconnect where
  reason : UInt32
  description : Bytes
  language : Bytes
  deriving DecidableEq, Repr

/-- message/mod.rs:226-228 -/
inductive DisconnectParseError where
  | badLength
  deriving DecidableEq, Repr

/-- `Disconnect::parse`, message/mod.rs:201-215 -/
def Disconnect.parse (data : Bytes) : R DisconnectParseError Disconnect := do
  let reason ← (getTo data 4).okOr .badLength
  let (description, data) ← (parseString (← idxFrom data 4)).okOr .badLength
  let (language, data) ← (parseString data).okOr .badLength
  if !data.isEmpty then .err .badLength
  else do
    let reason ← u32FromBe reason
    .ok { reason, description, language }

/-- `Disconnect::serialize`, message/mod.rs:217-222 -/
def Disconnect.serialize (o : Disconnect) (buf : Bytes) : R Unit (Nat × Bytes) := do
  let (a, w1, buf) ← makeUint32 buf o.reason
  let (b, w2, buf) ← makeString2 buf o.description
  let (c, w3, buf) ← makeString2 buf o.language
  .ok (a + b + c, w1 ++ (w2 ++ (w3 ++ buf)))

/-- message/mod.rs:230-232 -/
structure Ignore where
  data : Bytes
  deriving DecidableEq, Repr

/-- message/mod.rs:249-252 -/
inductive IgnoreParseError where
  | truncated | unread
  deriving DecidableEq, Repr

/-- `Ignore::parse`, message/mod.rs:235-240 -/
def Ignore.parse (data : Bytes) : R IgnoreParseError Ignore := do
  let (data, d) ← (parseString data).okOr .truncated
  guardE d.isEmpty .unread
  .ok { data }

/-- `Ignore::serialize`, message/mod.rs:242-245 -/
def Ignore.serialize (o : Ignore) (buf : Bytes) : R Unit (Nat × Bytes) := do
  let (a, w1, buf) ← makeString2 buf o.data
  .ok (a, w1 ++ buf)

/-- message/mod.rs:254-256 -/
structure Unimplemented where
  sequenceNumber : UInt32
  deriving DecidableEq, Repr

/-- message/mod.rs:274-277 -/
inductive UnimplementedParseError where
  | truncated | unread
  deriving DecidableEq, Repr

/-- `Unimplemented::parse`, message/mod.rs:259-265 -/
def Unimplemented.parse (data : Bytes) : R UnimplementedParseError Unimplemented := do
  let (sequenceNumber, data) ← (parseUint32 data).okOr .truncated
  guardE data.isEmpty .unread
  .ok { sequenceNumber }

/-- `Unimplemented::serialize`, message/mod.rs:267-270 -/
def Unimplemented.serialize (o : Unimplemented) (buf : Bytes) : R Unit (Nat × Bytes) := do
  let (a, w1, buf) ← makeUint32 buf o.sequenceNumber
  .ok (a, w1 ++ buf)

/-- message/mod.rs:279-283 -/
structure Debug where
  alwaysDisplay : Bool
  message : Bytes
  language : Bytes
  deriving DecidableEq, Repr

/-- message/mod.rs:305-309 -/
inductive DebugParseError where
  | truncated | unread | invalidUtf8
  deriving DecidableEq, Repr

/-- `Debug::parse`, message/mod.rs:286-294 -/
def Debug.parse (data : Bytes) : R DebugParseError Debug := do
  let (alwaysDisplay, data) ← (parseBool data).okOr .truncated
  let (message, data) ← (parseString data).okOr .truncated
  let (language, data) ← (parseString data).okOr .truncated
  let message ← (Utf8.fromUtf8 message).okOr .invalidUtf8
  guardE data.isEmpty .unread
  .ok { alwaysDisplay, message, language }

/-- `Debug::serialize`, message/mod.rs:296-301 -/
def Debug.serialize (o : Debug) (buf : Bytes) : R Unit (Nat × Bytes) := do
  let (a, w1, buf) ← makeBool buf o.alwaysDisplay
  let (b, w2, buf) ← makeString2 buf o.message
  let (c, w3, buf) ← makeString2 buf o.language
  .ok (a + b + c, w1 ++ (w2 ++ (w3 ++ buf)))

/-- `ServiceRequest` and `ServiceAccept` of the macro `impl_s!`, service.rs:5-7;
one Lean structure, the variant of `Message` tells them apart -/
structure Service where
  serviceName : Bytes
  deriving DecidableEq, Repr

/-- service.rs:45-48 -/
inductive ServiceParseError where
  | badLength
  deriving DecidableEq, Repr

/-- `parse` of `impl_s!`, service.rs:14-19 -/
def Service.parse (data : Bytes) : R ServiceParseError Service := do
  let (s, rem) ← (parseString data).okOr .badLength
  guardE rem.isEmpty .badLength
  .ok { serviceName := s }

/-- `serialize` of `impl_s!`, service.rs:21-24 -/
def Service.serialize (o : Service) (buf : Bytes) : R Unit (Nat × Bytes) := do
  let (a, w1, buf) ← makeString2 buf o.serviceName
  .ok (a, w1 ++ buf)

end Msg

/-- `Message`, message/mod.rs:20-33 -/
inductive Message where
  | disconnect (o : Msg.Disconnect)
  | ignore (o : Msg.Ignore)
  | unimplemented (o : Msg.Unimplemented)
  | debug (o : Msg.Debug)
  | kexInit (o : Kex.KexInit)
  | kexEcdhInit (o : Kex.EcdhInit)
  | kexEcdhReply (o : Kex.EcdhReply)
  | newKeys
  | serviceRequest (o : Msg.Service)
  | serviceAccept (o : Msg.Service)
  | userAuth (o : UserAuth)
  | channel (o : Channel)
  deriving DecidableEq, Repr

/-- `MessageParseError`, message/mod.rs:119-134 -/
inductive MessageParseError where
  | noMessageType
  | unknownMessageType (ty : Byte)
  | disconnect (e : Msg.DisconnectParseError)
  | ignore (e : Msg.IgnoreParseError)
  | unimplemented (e : Msg.UnimplementedParseError)
  | debug (e : Msg.DebugParseError)
  | kexInit (e : Kex.KexInitParseError)
  | newKeys (e : Kex.NewKeysParseError)
  | kexEcdhInit (e : Kex.EcdhInitParseError)
  | kexEcdhReply (e : Kex.EcdhReplyParseError)
  | serviceRequest (e : Msg.ServiceParseError)
  | serviceAccept (e : Msg.ServiceParseError)
  | userAuth (e : UserAuthParseError)
  | channel (e : ChannelParseError)
  deriving DecidableEq, Repr

/-- `Message::parse`, message/mod.rs:52-92; constants 36-50 -/
def Message.parse (data : Bytes) : R MessageParseError Message := do
  let t ← (getAt data 0).okOr .noMessageType
  let rest ← idxFrom data 1
  if t = 1 then ((Msg.Disconnect.parse rest).map Message.disconnect).mapErr .disconnect
  else if t = 2 then ((Msg.Ignore.parse rest).map Message.ignore).mapErr .ignore
  else if t = 3 then
    ((Msg.Unimplemented.parse rest).map Message.unimplemented).mapErr .unimplemented
  else if t = 4 then ((Msg.Debug.parse rest).map Message.debug).mapErr .debug
  else if t = 5 then
    ((Msg.Service.parse rest).map Message.serviceRequest).mapErr .serviceRequest
  else if t = 6 then ((Msg.Service.parse rest).map Message.serviceAccept).mapErr .serviceAccept
  else if t = 20 then ((Kex.KexInit.parse rest).map Message.kexInit).mapErr .kexInit
  else if t = 21 then ((Kex.NewKeys.parse rest).map (fun _ => Message.newKeys)).mapErr .newKeys
  else if t = 30 then ((Kex.EcdhInit.parse rest).map Message.kexEcdhInit).mapErr .kexEcdhInit
  else if t = 31 then
    ((Kex.EcdhReply.parse rest).map Message.kexEcdhReply).mapErr .kexEcdhReply
  else if 50 ≤ t ∧ t ≤ 79 then ((UserAuth.parse t rest).map Message.userAuth).mapErr .userAuth
  else if 90 ≤ t ∧ t ≤ 127 then ((Channel.parse t rest).map Message.channel).mapErr .channel
  else .err (.unknownMessageType t)

/-- `Message::serialize`, message/mod.rs:94-115: the written part and the rest of the buffer -/
def Message.serialize (m : Message) (buf : Bytes) : R Unit (Bytes × Bytes) := do
  let (i, buf) ← (match m with
    | .disconnect o => serTy 1 buf o.serialize
    | .ignore o => serTy 2 buf o.serialize
    | .unimplemented o => serTy 3 buf o.serialize
    | .debug o => serTy 4 buf o.serialize
    | .serviceRequest o => serTy 5 buf o.serialize
    | .serviceAccept o => serTy 6 buf o.serialize
    | .kexInit o => serTy 20 buf o.serialize
    | .newKeys => serTy 21 buf Kex.NewKeys.serialize
    | .kexEcdhInit o => serTy 30 buf o.serialize
    | .kexEcdhReply o => serTy 31 buf o.serialize
    | .userAuth o => o.serialize buf
    | .channel o => o.serialize buf)
  splitAtP buf i

end Nora
