import Verif.Model.Data
/-
Model of nora_ssh_core/src/message/channel/mod.rs.
-/
namespace Nora
open R

namespace Chan

/-- channel/mod.rs:163-168 -/
structure Open where
  ty : Bytes
  senderChannel : UInt32
  windowSize : UInt32
  maxPacketSize : UInt32
  deriving DecidableEq, Repr

/-- channel/mod.rs:195-198 -/
inductive OpenParseError where
  | truncated | unread
  deriving DecidableEq, Repr

/-- `Open::parse`, channel/mod.rs:171-183 -/
def Open.parse (data : Bytes) : R OpenParseError Open := do
  let (ty, data) ← (parseString data).okOr .truncated
  if data.length < 12 then .err .truncated
  else if data.length > 12 then .err .unread
  else do
    let senderChannel ← u32FromBe (← idxTo data 4)
    let windowSize ← u32FromBe (← idxRange data 4 8)
    let maxPacketSize ← u32FromBe (← idxFrom data 8)
    .ok { ty, senderChannel, windowSize, maxPacketSize }

/-- `Open::serialize`, channel/mod.rs:185-191 -/
def Open.serialize (o : Open) (buf : Bytes) : R Unit (Nat × Bytes) := do
  let (a, w1, buf) ← makeString2 buf o.ty
  let (b, w2, buf) ← makeUint32 buf o.senderChannel
  let (c, w3, buf) ← makeUint32 buf o.windowSize
  let (d, w4, buf) ← makeUint32 buf o.maxPacketSize
  .ok (a + b + c + d, w1 ++ (w2 ++ (w3 ++ (w4 ++ buf))))

/-- channel/mod.rs:200-206 -/
structure OpenConfirmation where
  recipientChannel : UInt32
  senderChannel : UInt32
  windowSize : UInt32
  maxPacketSize : UInt32
  data : Bytes
  deriving DecidableEq, Repr

/-- channel/mod.rs:238-240 -/
inductive OpenConfirmationParseError where
  | truncated
  deriving DecidableEq, Repr

/-- `OpenConfirmation::parse`, channel/mod.rs:209-225 -/
def OpenConfirmation.parse (data : Bytes) : R OpenConfirmationParseError OpenConfirmation := do
  if data.length < 16 then .err .truncated
  else do
    let recipientChannel ← u32FromBe (← idxTo data 4)
    let senderChannel ← u32FromBe (← idxRange data 4 8)
    let windowSize ← u32FromBe (← idxRange data 8 12)
    let maxPacketSize ← u32FromBe (← idxRange data 12 16)
    let data ← idxFrom data 16
    .ok { recipientChannel, senderChannel, windowSize, maxPacketSize, data }

/-- `OpenConfirmation::serialize`, channel/mod.rs:227-234 -/
def OpenConfirmation.serialize (o : OpenConfirmation) (buf : Bytes) : R Unit (Nat × Bytes) := do
  let (a, w1, buf) ← makeUint32 buf o.recipientChannel
  let (b, w2, buf) ← makeUint32 buf o.senderChannel
  let (c, w3, buf) ← makeUint32 buf o.windowSize
  let (d, w4, buf) ← makeUint32 buf o.maxPacketSize
  let (e, w5, buf) ← makeRaw buf o.data
  .ok (a + b + c + d + e, w1 ++ (w2 ++ (w3 ++ (w4 ++ (w5 ++ buf)))))

/-- `OpenFailureReason`, channel/mod.rs:293-299 -/
inductive OpenFailureReason where
  | adminstrativelyProhibited | connectFailed | unknownChannelType | resourceShortage
  | other (r : UInt32)
  deriving DecidableEq, Repr

/-- channel/mod.rs:242-247 -/
structure OpenFailure where
  recipientChannel : UInt32
  reason : OpenFailureReason
  description : Bytes
  language : Bytes
  deriving DecidableEq, Repr

/-- channel/mod.rs:302-306 -/
inductive OpenFailureParseError where
  | truncated | unread | invalidUtf8
  deriving DecidableEq, Repr

/-- the `match reason` of `OpenFailure::parse`, channel/mod.rs:261-267 -/
def OpenFailureReason.ofCode (r : UInt32) : OpenFailureReason :=
  if r = 1 then .adminstrativelyProhibited
  else if r = 2 then .connectFailed
  else if r = 3 then .unknownChannelType
  else if r = 4 then .resourceShortage
  else .other r

/-- the `match self.reason` of `OpenFailure::serialize`, channel/mod.rs:278-284 -/
def OpenFailureReason.code : OpenFailureReason → UInt32
  | .adminstrativelyProhibited => 1
  | .connectFailed => 2
  | .unknownChannelType => 3
  | .resourceShortage => 4
  | .other r => r

/-- `OpenFailure::parse`, channel/mod.rs:250-272 -/
def OpenFailure.parse (data : Bytes) : R OpenFailureParseError OpenFailure := do
  let (recipientChannel, data) ← (parseUint32 data).okOr .truncated
  let (reason, data) ← (parseUint32 data).okOr .truncated
  let (description, data) ← (parseString data).okOr .truncated
  let (language, data) ← (parseString data).okOr .truncated
  guardE data.isEmpty .unread
  let description ← (Utf8.fromUtf8 description).okOr .invalidUtf8
  .ok { recipientChannel, reason := OpenFailureReason.ofCode reason, description, language }

/-- `OpenFailure::serialize`, channel/mod.rs:274-289 -/
def OpenFailure.serialize (o : OpenFailure) (buf : Bytes) : R Unit (Nat × Bytes) := do
  let (a, w1, buf) ← makeUint32 buf o.recipientChannel
  let (b, w2, buf) ← makeUint32 buf o.reason.code
  let (c, w3, buf) ← makeString2 buf o.description
  let (d, w4, buf) ← makeString2 buf o.language
  .ok (a + b + c + d, w1 ++ (w2 ++ (w3 ++ (w4 ++ buf))))

/-- channel/mod.rs:308-311 -/
structure WindowAdjust where
  recipientChannel : UInt32
  addBytes : UInt32
  deriving DecidableEq, Repr

/-- channel/mod.rs:331-334 -/
inductive WindowAdjustParseError where
  | truncated | unread
  deriving DecidableEq, Repr

/-- `WindowAdjust::parse`, channel/mod.rs:314-321 -/
def WindowAdjust.parse (data : Bytes) : R WindowAdjustParseError WindowAdjust := do
  let (recipientChannel, data) ← (parseUint32 data).okOr .truncated
  let (addBytes, data) ← (parseUint32 data).okOr .truncated
  guardE data.isEmpty .unread
  .ok { recipientChannel, addBytes }

/-- `WindowAdjust::serialize`, channel/mod.rs:323-327 -/
def WindowAdjust.serialize (o : WindowAdjust) (buf : Bytes) : R Unit (Nat × Bytes) := do
  let (a, w1, buf) ← makeUint32 buf o.recipientChannel
  let (b, w2, buf) ← makeUint32 buf o.addBytes
  .ok (a + b, w1 ++ (w2 ++ buf))

/-- channel/mod.rs:336-339 -/
structure Data where
  recipientChannel : UInt32
  data : Bytes
  deriving DecidableEq, Repr

/-- channel/mod.rs:358-361 -/
inductive DataParseError where
  | truncated | unread
  deriving DecidableEq, Repr

/-- `Data::parse`, channel/mod.rs:342-348 -/
def Data.parse (data : Bytes) : R DataParseError Data := do
  let (recipientChannel, data) ← (parseUint32 data).okOr .truncated
  let (data, d) ← (parseString data).okOr .truncated
  guardE d.isEmpty .unread
  .ok { recipientChannel, data }

/-- `Data::serialize`, channel/mod.rs:350-354 -/
def Data.serialize (o : Data) (buf : Bytes) : R Unit (Nat × Bytes) := do
  let (a, w1, buf) ← makeUint32 buf o.recipientChannel
  let (b, w2, buf) ← makeString2 buf o.data
  .ok (a + b, w1 ++ (w2 ++ buf))

/-- channel/mod.rs:363-367 -/
structure ExtendedData where
  recipientChannel : UInt32
  ty : UInt32
  data : Bytes
  deriving DecidableEq, Repr

/-- channel/mod.rs:389-392 -/
inductive ExtendedDataParseError where
  | truncated | unread
  deriving DecidableEq, Repr

/-- `ExtendedData::parse`, channel/mod.rs:370-378 -/
def ExtendedData.parse (data : Bytes) : R ExtendedDataParseError ExtendedData := do
  let (recipientChannel, data) ← (parseUint32 data).okOr .truncated
  let (ty, data) ← (parseUint32 data).okOr .truncated
  let (data, d) ← (parseString data).okOr .truncated
  guardE d.isEmpty .unread
  .ok { recipientChannel, ty, data }

/-- `ExtendedData::serialize`, channel/mod.rs:380-385 -/
def ExtendedData.serialize (o : ExtendedData) (buf : Bytes) : R Unit (Nat × Bytes) := do
  let (a, w1, buf) ← makeUint32 buf o.recipientChannel
  let (b, w2, buf) ← makeUint32 buf o.ty
  let (c, w3, buf) ← makeString2 buf o.data
  .ok (a + b + c, w1 ++ (w2 ++ (w3 ++ buf)))

/-- channel/mod.rs:394-399 -/
structure Request where
  recipientChannel : UInt32
  ty : Bytes
  wantReply : Bool
  data : Bytes
  deriving DecidableEq, Repr

/-- channel/mod.rs:424-426 -/
inductive RequestParseError where
  | truncated
  deriving DecidableEq, Repr

/-- `Request::parse`, channel/mod.rs:402-412 -/
def Request.parse (data : Bytes) : R RequestParseError Request := do
  let h ← (getTo data 4).okOr .truncated
  let recipientChannel ← u32FromBe h
  let data ← idxFrom data 4
  let (ty, data) ← (parseString data).okOr .truncated
  let w ← (getAt data 0).okOr .truncated
  let wantReply := w != 0
  let data ← idxFrom data 1
  .ok { recipientChannel, ty, wantReply, data }

/-- `Request::serialize`, channel/mod.rs:414-420 -/
def Request.serialize (o : Request) (buf : Bytes) : R Unit (Nat × Bytes) := do
  let (a, w1, buf) ← makeUint32 buf o.recipientChannel
  let (b, w2, buf) ← makeString2 buf o.ty
  let (c, w3, buf) ← makeBool buf o.wantReply
  let (d, w4, buf) ← makeRaw buf o.data
  .ok (a + b + c + d, w1 ++ (w2 ++ (w3 ++ (w4 ++ buf))))

/-- The four structs of the `chan_only!` macro (`Eof`, `Close`, `Success`, `Failure`),
channel/mod.rs:428-459; one Lean structure, the variant of `Channel` tells them apart. -/
structure ChanOnly where
  recipientChannel : UInt32
  deriving DecidableEq, Repr

/-- `EofParseError`, `CloseParseError`, `SuccessParseError`, `FailureParseError` -/
inductive ChanOnlyParseError where
  | badLength
  deriving DecidableEq, Repr

/-- `parse` of `chan_only!`, channel/mod.rs:435-441 -/
def ChanOnly.parse (data : Bytes) : R ChanOnlyParseError ChanOnly :=
  if data.length = 4 then do
    let recipientChannel ← u32FromBe data
    .ok { recipientChannel }
  else .err .badLength

/-- `serialize` of `chan_only!`, channel/mod.rs:443-446 -/
def ChanOnly.serialize (o : ChanOnly) (buf : Bytes) : R Unit (Nat × Bytes) := do
  let (a, w1, buf) ← makeUint32 buf o.recipientChannel
  .ok (a, w1 ++ buf)

end Chan

/-- `Channel`, channel/mod.rs:8-20 -/
inductive Channel where
  | open (o : Chan.Open)
  | openConfirmation (o : Chan.OpenConfirmation)
  | openFailure (o : Chan.OpenFailure)
  | windowAdjust (o : Chan.WindowAdjust)
  | data (o : Chan.Data)
  | extendedData (o : Chan.ExtendedData)
  | eof (o : Chan.ChanOnly)
  | close (o : Chan.ChanOnly)
  | request (o : Chan.Request)
  | success (o : Chan.ChanOnly)
  | failure (o : Chan.ChanOnly)
  deriving DecidableEq, Repr

/-- `channel::ParseError`, channel/mod.rs:91-104 -/
inductive ChannelParseError where
  | unknownMessageType (ty : Byte)
  | open (e : Chan.OpenParseError)
  | openConfirmation (e : Chan.OpenConfirmationParseError)
  | openFailure (e : Chan.OpenFailureParseError)
  | windowAdjust (e : Chan.WindowAdjustParseError)
  | data (e : Chan.DataParseError)
  | extendedData (e : Chan.ExtendedDataParseError)
  | eof (e : Chan.ChanOnlyParseError)
  | close (e : Chan.ChanOnlyParseError)
  | request (e : Chan.RequestParseError)
  | success (e : Chan.ChanOnlyParseError)
  | failure (e : Chan.ChanOnlyParseError)
  deriving DecidableEq, Repr

/-- `Channel::parse`, channel/mod.rs:35-66; constants 23-33 -/
def Channel.parse (ty : Byte) (data : Bytes) : R ChannelParseError Channel :=
  if ty = 90 then ((Chan.Open.parse data).map Channel.open).mapErr .open
  else if ty = 91 then
    ((Chan.OpenConfirmation.parse data).map Channel.openConfirmation).mapErr .openConfirmation
  else if ty = 92 then ((Chan.OpenFailure.parse data).map Channel.openFailure).mapErr .openFailure
  else if ty = 93 then
    ((Chan.WindowAdjust.parse data).map Channel.windowAdjust).mapErr .windowAdjust
  else if ty = 94 then ((Chan.Data.parse data).map Channel.data).mapErr .data
  else if ty = 95 then
    ((Chan.ExtendedData.parse data).map Channel.extendedData).mapErr .extendedData
  else if ty = 96 then ((Chan.ChanOnly.parse data).map Channel.eof).mapErr .eof
  else if ty = 97 then ((Chan.ChanOnly.parse data).map Channel.close).mapErr .close
  else if ty = 98 then ((Chan.Request.parse data).map Channel.request).mapErr .request
  else if ty = 99 then ((Chan.ChanOnly.parse data).map Channel.success).mapErr .success
  else if ty = 100 then ((Chan.ChanOnly.parse data).map Channel.failure).mapErr .failure
  else .err (.unknownMessageType ty)

/-- the local `fn f(ty, buf, f)` of `Message::serialize` (message/mod.rs:95-99) and
`Channel::serialize` (channel/mod.rs:69-73) -/
def serTy (ty : Byte) (buf : Bytes) (f : Bytes → R Unit (Nat × Bytes)) : R Unit (Nat × Bytes) := do
  let (_, buf) ← splitFirst buf
  let (i, buf) ← f buf
  .ok (i + 1, ty :: buf)

/-- `Channel::serialize`, channel/mod.rs:68-87; constants 23-33 -/
def Channel.serialize (c : Channel) (buf : Bytes) : R Unit (Nat × Bytes) :=
  match c with
  | .open o => serTy 90 buf o.serialize
  | .openConfirmation o => serTy 91 buf o.serialize
  | .openFailure o => serTy 92 buf o.serialize
  | .windowAdjust o => serTy 93 buf o.serialize
  | .data o => serTy 94 buf o.serialize
  | .extendedData o => serTy 95 buf o.serialize
  | .eof o => serTy 96 buf o.serialize
  | .close o => serTy 97 buf o.serialize
  | .request o => serTy 98 buf o.serialize
  | .success o => serTy 99 buf o.serialize
  | .failure o => serTy 100 buf o.serialize

end Nora
