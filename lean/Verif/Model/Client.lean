import Verif.Model.Auth
import Verif.Model.Arena
import Verif.Model.Session
/-
Model of `Client::start` and `Client::receive`, nora_ssh/src/server.rs:244-509: the session of an
authenticated client.

`start` waits with `select!` for the future `receive` and for reads and exits of processes. Which one
completes, and what it returns, is the choice of a schedule (`Step`). Whenever another branch completes,
the future `receive` is dropped where it waits (`Cut`): before or inside a packet, in the handler
`spawn`, in a write to the standard input of a process, or in the write of a reply. The lock of
`write` is never contended: it is released by the end of `send` or by dropping the future.
-/
namespace Nora
open R

/-- `IoSet`, server.rs:535-545: which streams there are. `wait` is always there. -/
structure IoSet where
  stdin : Bool
  stdout : Bool
  stderr : Bool
  deriving DecidableEq, Repr

/-- The handler `spawn` (server.rs:597-602) and the standard inputs of the processes. They may depend on
everything that has happened on the connection, and may fail or panic. -/
structure ConnHandlers where
  /-- `spawn(user, ty, &[])`; the user is the one given by `authenticate` -/
  spawn : List Event → (user : Nat) → SpawnType → R Unit IoSet
  /-- `stdin.write(data)` of a process: how many bytes it takes (at most all) -/
  write : List Event → (proc : Nat) → Bytes → R Unit Nat

/-- `Out::send` without the final write: the packet, the cipher and the new content of `buf` -/
def Out.seal (K : Crypto) (c : ChaCha) (buf : Bytes)
    (fill : Bytes → R OutError (Nat × Bytes)) : M OutError (Bytes × ChaCha × Bytes) := do
  let pkt ← M.withRng (Packet.wrap buf c.blockSize false fill)
  let payload ← M.lift pkt.payload -- only for the log
  let raw ← M.lift (pkt.intoRaw tagSize)
  let (enc, c) ← M.lift (c.encrypt K raw)
  M.logEvent (.sent payload)
  pure (enc, c, enc ++ pkt.data.drop raw.length)

namespace Client

/-- `Channel`, server.rs:525-533: the peer's number and the process that has the standard input. -/
structure Chan where
  peer : UInt32
  stdin : Option Nat
  deriving DecidableEq, Repr

/-- The variables of `Client` and of `start`: ciphers, buffer, channels, the number of processes so far,
and for each `FuturesUnordered` the process and channel number of its futures (their order means
nothing). -/
structure St where
  send : ChaCha
  receive : ChaCha
  buf : Bytes
  channels : Arena Chan
  procs : Nat
  stdouts : List (Nat × UInt32)
  stderrs : List (Nat × UInt32)
  waits : List (Nat × UInt32)
  deriving DecidableEq, Repr

/-- where the future `receive` is dropped -/
inductive Cut where
  /-- it has made no progress -/
  | none
  /-- after reading `n` bytes of a packet -/
  | read (n : Nat)
  /-- in the handler `spawn` -/
  | spawn
  /-- in the write to the standard input of a process -/
  | stdin
  /-- after writing `n` bytes of a reply -/
  | write (n : Nat)
  deriving DecidableEq, Repr

/-- why `receive` stops: `ReceiveError` (server.rs:556-561), or it is dropped -/
inductive Stop where
  | recv (e : InError)
  | out
  | dropped (st : St)
  deriving DecidableEq, Repr

variable (K : Crypto) (H : ConnHandlers) (user : Nat)

/-- `send`, server.rs:267-274, of a message, server.rs:379 etc. -/
def send (cut : Cut) (st : St) (m : Message) : M Stop St := do
  match cut with
  | .write n => do
    let (enc, c, buf) ← (Out.seal K st.send st.buf (Message.write m)).mapErr (fun _ => .out)
    if n < enc.length then do
      (M.writeAll (enc.take n)).mapErr (fun _ => .out)
      M.fail (.dropped { st with send := c, buf })
    else do
      (M.writeAll enc).mapErr (fun _ => .out)
      pure { st with send := c, buf }
  | _ => do
    let (c, buf) ← (Out.send K st.send st.buf (Message.write m)).mapErr (fun _ => .out)
    pure { st with send := c, buf }

/-- dropping the standard input of a channel -/
def closeStdin (ch : Chan) : M Stop Unit :=
  match ch.stdin with
  | some p => M.logEvent (.proc (.stdinClosed p))
  | none => pure ()

/-- an `Open` message, server.rs:364-382 -/
def opened (cut : Cut) (st : St) (o : Chan.Open) : M Stop St := do
  let (id, channels) ← M.lift (st.channels.insert { peer := o.senderChannel, stdin := none })
  send K cut { st with channels } (.channel (.openConfirmation {
    senderChannel := id
    recipientChannel := o.senderChannel
    windowSize := o.windowSize
    maxPacketSize := o.maxPacketSize
    data := [] }))

/-- the call of `spawn` and the new standard input, server.rs:393-398 and 409-418, for the channel `ch`
with number `id` -/
def spawn (cut : Cut) (st : St) (id : UInt32) (ch : Chan) (ty : SpawnType) :
    M Stop (St × IoSet) := do
  let log ← M.getLog
  M.logEvent (.proc (.spawn ty st.procs))
  if cut = .spawn then M.fail (.dropped { st with procs := st.procs + 1 })
  else do
    let io ← M.lift (H.spawn log user ty).unwrap
    M.logEvent (.proc (.started st.procs io.stdin io.stdout io.stderr))
    closeStdin ch
    let ch := { ch with stdin := if io.stdin then some st.procs else none }
    pure ({ st with channels := st.channels.put id ch, procs := st.procs + 1 }, io)

/-- the reply to a request, server.rs:454-458 -/
def reply (cut : Cut) (st : St) (wantReply : Bool) (m : Message) : M Stop St :=
  if wantReply then send K cut st m else pure st

/-- the result of `spawn` is passed to `start`: server.rs:459-469 and 308-316. `proc` is the new
process. -/
def newIo (st : St) (proc : Nat) (channel : UInt32) (io : IoSet) : St :=
  if io.stdout || io.stderr then
    { st with
      stdouts := if io.stdout then st.stdouts ++ [(proc, channel)] else st.stdouts
      stderrs := if io.stderr then st.stderrs ++ [(proc, channel)] else st.stderrs
      waits := st.waits ++ [(proc, channel)] }
  else st

/-- a shell or exec request, server.rs:392-427 and 452-469 -/
def run (cut : Cut) (st : St) (r : Chan.Request) (ch : Chan) (ty : SpawnType) : M Stop St := do
  let proc := st.procs
  let (st, io) ← spawn H user cut st r.recipientChannel ch ty
  let st ← reply K cut st r.wantReply (.channel (.success { recipientChannel := ch.peer }))
  pure (newIo st proc ch.peer io)

/-- a `Request` message, server.rs:383-470 -/
def request (cut : Cut) (st : St) (r : Chan.Request) : M Stop St := do
  match st.channels.get r.recipientChannel with
  | none => M.panic
  | some ch => do
    let req ← M.lift (SessionRequest.parse r.ty r.data).unwrap -- `todo!()`
    match req with
    | .shell => run K H user cut st r ch .shell
    | .exec command => run K H user cut st r ch (.exec command)
    | .pty .. => reply K cut st r.wantReply (.channel (.failure { recipientChannel := ch.peer }))
    | .env .. => reply K cut st r.wantReply (.channel (.failure { recipientChannel := ch.peer }))
    | .x11 .. => M.panic
    | .subsystem .. => M.panic
    | .windowChange .. => M.panic
    | .xonXoff .. => M.panic
    | .signal .. => M.panic
    | .exitStatus .. => M.panic
    | .exitSignal .. => M.panic

/-- a `Data` message, server.rs:471-475. One call of `write`, whose result is not used. -/
def data (cut : Cut) (st : St) (d : Chan.Data) : M Stop St := do
  match st.channels.get d.recipientChannel with
  | none => M.panic
  | some ch =>
    match ch.stdin with
    | none => M.panic
    | some proc =>
      if cut = .stdin then M.fail (.dropped st)
      else do
        let log ← M.getLog
        let n ← M.lift (H.write log proc d.data).unwrap
        M.logEvent (.proc (.stdin proc (d.data.take n)))
        pure st

/-- an `Eof` message, server.rs:477-484 -/
def eof (st : St) (e : Chan.ChanOnly) : M Stop St := do
  match st.channels.get e.recipientChannel with
  | none => M.panic
  | some ch => do
    closeStdin ch
    pure { st with channels := st.channels.put e.recipientChannel { ch with stdin := none } }

/-- a `Close` message, server.rs:485-487 -/
def close (st : St) (c : Chan.ChanOnly) : M Stop St := do
  match st.channels.remove c.recipientChannel with
  | (none, channels) => pure { st with channels }
  | (some ch, channels) => do
    closeStdin ch
    pure { st with channels }

/-- the `match` of `receive`, server.rs:363-506; `inr` is `Action::Exit` -/
def handle (cut : Cut) (st : St) : Message → M Stop (St ⊕ Unit)
  | .channel (.open o) => do pure (.inl (← opened K cut st o))
  | .channel (.request r) => do pure (.inl (← request K H user cut st r))
  | .channel (.data d) => do pure (.inl (← data H cut st d))
  | .channel (.eof e) => do pure (.inl (← eof st e))
  | .channel (.close c) => do pure (.inl (← close st c))
  | .disconnect _ => pure (.inr ())
  | .ignore _ => pure (.inl st)
  | .channel (.extendedData _) => M.panic
  | .channel (.openConfirmation _) => M.panic
  | .channel (.openFailure _) => M.panic
  | .channel (.windowAdjust _) => M.panic
  | .channel (.success _) => M.panic
  | .channel (.failure _) => M.panic
  | .unimplemented _ => M.panic
  | .debug _ => M.panic
  | .kexInit _ => M.panic
  | .kexEcdhInit _ => M.panic
  | .kexEcdhReply _ => M.panic
  | .newKeys => M.panic
  | .serviceRequest _ => M.panic
  | .serviceAccept _ => M.panic
  | .userAuth _ => M.panic

/-- `receive` is dropped after `n` bytes of a packet were read by the two `read_exact` of `In::recv`
(host.rs:347, 357). If this is not possible (the peer has not sent that many bytes, or the packet is
complete or not acceptable by then) nothing happens. -/
def readCut (n : Nat) (st : St) : M Stop (St ⊕ Unit) := fun s =>
  if s.inp.length < n then (.ok (.inl st), s)
  else
    let st' := { st with buf := s.inp.take n ++ st.buf.drop n }
    if n < 4 then (.err (.dropped st'), { s with inp := s.inp.drop n })
    else
      let (lenb, c) := st.receive.decryptLength K (s.inp.take 4)
      match (u32FromBe lenb : R Unit UInt32) with
      | .ok v =>
        if 4 + v.toNat + tagSize ≤ st.buf.length ∧ n < 4 + v.toNat + tagSize then
          (.err (.dropped { st' with receive := c }), { s with inp := s.inp.drop n })
        else (.ok (.inl st), s)
      | _ => (.ok (.inl st), s)

/-- one iteration of the loop of `receive`, server.rs:362-506 -/
def message (cut : Cut) (st : St) : M Stop (St ⊕ Unit) := do
  match cut with
  | .read n => readCut K n st
  | _ => do
    let (payload, receive, buf) ← (In.recv K st.receive st.buf).mapErr (fun e => .recv e.1)
    let m ← M.lift (Message.parse payload).unwrap
    handle K H user cut { st with receive, buf } m

/-- what happens on the other branches of `select!`. `i` is a position in the list of futures. `none` is
an `io::Error`, or that the future `wait` panics (nora_sshd's does so if the process cannot be waited for,
main.rs:106). A read returns at most 256 bytes. -/
inductive Ev where
  | stdout (i : Nat) (r : Option Bytes)
  | stderr (i : Nat) (r : Option Bytes)
  | exit (i : Nat) (status : Option UInt32)
  deriving DecidableEq, Repr

/-- the message with the exit status, server.rs:339-348 -/
def exitStatus (channel : UInt32) (status : UInt32) : R Stop Message := do
  let (ty, l, data) ← ((SessionRequest.exitStatus status).serialize (List.replicate 256 0)).unwrap
  let data ← idxTo data l
  .ok (.channel (.request { recipientChannel := channel, ty, data, wantReply := false }))

/-- the other branches of `select!`, server.rs:319-349. A position that does not exist means that
nothing happens. -/
def event (st : St) : Ev → M Stop St
  | .stdout i r =>
    match st.stdouts[i]? with
    | none => pure st
    | some (proc, channel) =>
      match r with
      | none => M.panic
      | some data => do
        let data := data.take 256
        M.logEvent (.proc (.stdout proc data))
        if data.length > 0 then
          send K .none st (.channel (.data { recipientChannel := channel, data }))
        else do
          let st := { st with stdouts := st.stdouts.eraseIdx i }
          let st ← send K .none st (.channel (.eof { recipientChannel := channel }))
          send K .none st (.channel (.close { recipientChannel := channel }))
  | .stderr i r =>
    match st.stderrs[i]? with
    | none => pure st
    | some (proc, channel) =>
      match r with
      | none => M.panic
      | some data => do
        let data := data.take 256
        M.logEvent (.proc (.stderr proc data))
        if data.length > 0 then
          send K .none st (.channel (.data { recipientChannel := channel, data }))
        else pure { st with stderrs := st.stderrs.eraseIdx i }
  | .exit i status =>
    match st.waits[i]? with
    | none => pure st
    | some (proc, channel) =>
      match status with
      | none => M.panic
      | some status => do
        M.logEvent (.proc (.exited proc status))
        let st := { st with waits := st.waits.eraseIdx i }
        let m ← M.lift (exitStatus channel status)
        send K .none st m

/-- one thing that happens: a packet is received and handled completely, or another branch of `select!`
completes and the future `receive` is dropped -/
inductive Step where
  | message
  | event (cut : Cut) (e : Ev)
  deriving DecidableEq, Repr

/-- dropping `receive` keeps what it has done -/
def dropReceive (x : M Stop (St ⊕ Unit)) : M Stop (St ⊕ Unit) := fun s =>
  match x s with
  | (.err (.dropped st), s) => (.ok (.inl st), s)
  | r => r

/-- one step -/
def step (st : St) : Step → M Stop (St ⊕ Unit)
  | .message => message K H user .none st
  | .event .none e => do pure (.inl (← event K st e))
  | .event cut e => do
    match ← dropReceive (message K H user cut st) with
    | .inl st => do pure (.inl (← event K st e))
    | .inr () => pure (.inr ())

/-- The loop of `start`, server.rs:304-351, for a finite schedule: `inl` if the session goes on after
it, `inr` if the client has disconnected. -/
def steps (st : St) : List Step → M Stop (St ⊕ Unit)
  | [] => pure (.inl st)
  | a :: t => do
    match ← step K H user st a with
    | .inl st => steps st t
    | .inr () => pure (.inr ())

/-- the client after authentication, server.rs:216-222, 291-303 -/
def start (a : Authenticated) : St :=
  { send := a.send, receive := a.receive, buf := List.replicate 35000 0, channels := Arena.new,
    procs := 0, stdouts := [], stderrs := [], waits := [] }

end Client

end Nora
