import Verif.Model.Data
/-
Model of nora_ssh_core/src/message/channel/session.rs.
-/
namespace Nora
open R

/-- `Signal`, session.rs:219-234 -/
inductive Signal where
  | abort | alarm | floatingPointException | hangup | illegal | interrupt | kill | pipe | quit
  | segmentationFault | terminate | user1 | user2
  | other (s : Bytes)
  deriving DecidableEq, Repr

/-- `Signal::from(&[u8])`, session.rs:238-245 with the table 258-272 -/
def Signal.ofName (s : Bytes) : Signal :=
  if s = b! "ABRT" then .abort
  else if s = b! "ALRM" then .alarm
  else if s = b! "FPE" then .floatingPointException
  else if s = b! "HUP" then .hangup
  else if s = b! "ILL" then .illegal
  else if s = b! "INT" then .interrupt
  else if s = b! "KILL" then .kill
  else if s = b! "PIPE" then .pipe
  else if s = b! "QUIT" then .quit
  else if s = b! "SEGV" then .segmentationFault
  else if s = b! "TERM" then .terminate
  else if s = b! "USR1" then .user1
  else if s = b! "USR2" then .user2
  else .other s

/-- `<&[u8]>::from(Signal)`, session.rs:247-254 with the table 258-272 -/
def Signal.name : Signal → Bytes
  | .abort => b! "ABRT"
  | .alarm => b! "ALRM"
  | .floatingPointException => b! "FPE"
  | .hangup => b! "HUP"
  | .illegal => b! "ILL"
  | .interrupt => b! "INT"
  | .kill => b! "KILL"
  | .pipe => b! "PIPE"
  | .quit => b! "QUIT"
  | .segmentationFault => b! "SEGV"
  | .terminate => b! "TERM"
  | .user1 => b! "USR1"
  | .user2 => b! "USR2"
  | .other s => s

/-- `SessionRequest`, session.rs:8-55 -/
inductive SessionRequest where
  | pty (terminal : Bytes) (charWidth charHeight pixelWidth pixelHeight : UInt32) (modes : Bytes)
  | x11 (singleConnection : Bool) (authProtocol authCookie : Bytes) (screen : UInt32)
  | env (name value : Bytes)
  | shell
  | exec (command : Bytes)
  | subsystem (name : Bytes)
  | windowChange (charWidth charHeight pixelWidth pixelHeight : UInt32)
  | xonXoff (on : Bool)
  | signal (signal : Signal)
  | exitStatus (status : UInt32)
  | exitSignal (signal : Signal) (coreDumped : Bool) (message : Bytes) (language : Bytes)
  deriving DecidableEq, Repr

/-- `session::ParseError`, session.rs:211-216 -/
inductive SessionParseError where
  | unknown | truncated | unread | invalidUtf8
  deriving DecidableEq, Repr

/-- `SessionRequest::parse`, session.rs:58-146 -/
def SessionRequest.parse (ty data : Bytes) : R SessionParseError SessionRequest :=
  let parseStr := fun data => (parseString data).okOr SessionParseError.truncated
  let parseU32 := fun data => (parseUint32 data).okOr SessionParseError.truncated
  let parseBool := fun data => (parseBool data).okOr SessionParseError.truncated
  let empty := fun (data : Bytes) => guardE data.isEmpty SessionParseError.unread
  if ty = b! "pty-req" then do
    let (terminal, data) ← parseStr data
    let (charWidth, data) ← parseU32 data
    let (charHeight, data) ← parseU32 data
    let (pixelWidth, data) ← parseU32 data
    let (pixelHeight, data) ← parseU32 data
    let (modes, data) ← parseStr data
    empty data
    .ok (.pty terminal charWidth charHeight pixelWidth pixelHeight modes)
  else if ty = b! "x11-req" then do
    let (singleConnection, data) ← parseBool data
    let (authProtocol, data) ← parseStr data
    let (authCookie, data) ← parseStr data
    let (screen, data) ← parseU32 data
    empty data
    .ok (.x11 singleConnection authProtocol authCookie screen)
  else if ty = b! "env" then do
    let (name, data) ← parseStr data
    let (value, data) ← parseStr data
    empty data
    .ok (.env name value)
  else if ty = b! "shell" then do
    empty data
    .ok .shell
  else if ty = b! "exec" then do
    let (command, data) ← parseStr data
    empty data
    .ok (.exec command)
  else if ty = b! "subsystem" then do
    let (name, data) ← parseStr data
    empty data
    .ok (.subsystem name)
  else if ty = b! "window-change" then do
    let (charWidth, data) ← parseU32 data
    let (charHeight, data) ← parseU32 data
    let (pixelWidth, data) ← parseU32 data
    let (pixelHeight, data) ← parseU32 data
    empty data
    .ok (.windowChange charWidth charHeight pixelWidth pixelHeight)
  else if ty = b! "xon-xoff" then do
    let (on, data) ← parseBool data
    empty data
    .ok (.xonXoff on)
  else if ty = b! "signal" then do
    let (sig, data) ← parseStr data
    empty data
    .ok (.signal (Signal.ofName sig))
  else if ty = b! "exit-status" then do
    let (status, data) ← parseU32 data
    empty data
    .ok (.exitStatus status)
  else if ty = b! "exit-signal" then do
    let (sig, data) ← parseStr data
    let (coreDumped, data) ← parseBool data
    let (message, data) ← parseStr data
    let (language, data) ← parseStr data
    empty data
    let message ← (Utf8.fromUtf8 message).okOr SessionParseError.invalidUtf8
    .ok (.exitSignal (Signal.ofName sig) coreDumped message language)
  else .err .unknown

/-- `SessionRequest::serialize`, session.rs:148-207: the type name, the count and the new content
of the buffer -/
def SessionRequest.serialize (r : SessionRequest) (buf : Bytes) :
    R Unit (Bytes × Nat × Bytes) :=
  match r with
  | .pty terminal charWidth charHeight pixelWidth pixelHeight modes => do
    let (a, w1, buf) ← makeString2 buf terminal
    let (b, w2, buf) ← makeUint32 buf charWidth
    let (c, w3, buf) ← makeUint32 buf charHeight
    let (d, w4, buf) ← makeUint32 buf pixelWidth
    let (e, w5, buf) ← makeUint32 buf pixelHeight
    let (f, w6, buf) ← makeString2 buf modes
    .ok (b! "pty-req", a + b + c + d + e + f, w1 ++ (w2 ++ (w3 ++ (w4 ++ (w5 ++ (w6 ++ buf))))))
  | .x11 singleConnection authProtocol authCookie screen => do
    let (a, w1, buf) ← makeBool buf singleConnection
    let (b, w2, buf) ← makeString2 buf authProtocol
    let (c, w3, buf) ← makeString2 buf authCookie
    let (d, w4, buf) ← makeUint32 buf screen
    .ok (b! "x11-req", a + b + c + d, w1 ++ (w2 ++ (w3 ++ (w4 ++ buf))))
  | .env name value => do
    let (a, w1, buf) ← makeString2 buf name
    let (b, w2, buf) ← makeString2 buf value
    .ok (b! "env", a + b, w1 ++ (w2 ++ buf))
  | .shell => .ok (b! "shell", 0, buf)
  | .exec command => do
    let (a, w1, buf) ← makeString2 buf command
    .ok (b! "exec", a, w1 ++ buf)
  | .subsystem name => do
    let (a, w1, buf) ← makeString2 buf name
    .ok (b! "subsystem", a, w1 ++ buf)
  | .windowChange charWidth charHeight pixelWidth pixelHeight => do
    let (a, w1, buf) ← makeUint32 buf charWidth
    let (b, w2, buf) ← makeUint32 buf charHeight
    let (c, w3, buf) ← makeUint32 buf pixelWidth
    let (d, w4, buf) ← makeUint32 buf pixelHeight
    .ok (b! "window-change", a + b + c + d, w1 ++ (w2 ++ (w3 ++ (w4 ++ buf))))
  | .xonXoff on => do
    let (a, w1, buf) ← makeBool buf on
    .ok (b! "xon-xoff", a, w1 ++ buf)
  | .signal sig => do
    let (a, w1, buf) ← makeString2 buf sig.name
    .ok (b! "signal", a, w1 ++ buf)
  | .exitStatus status => do
    let (a, w1, buf) ← makeUint32 buf status
    .ok (b! "exit-status", a, w1 ++ buf)
  | .exitSignal sig coreDumped message language => do
    let (a, w1, buf) ← makeString2 buf sig.name
    let (b, w2, buf) ← makeBool buf coreDumped
    let (c, w3, buf) ← makeString2 buf message
    let (d, w4, buf) ← makeString2 buf language
    .ok (b! "exit-signal", a + b + c + d, w1 ++ (w2 ++ (w3 ++ (w4 ++ buf))))

end Nora
