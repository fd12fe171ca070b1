import Verif.Spec.Auth
import Verif.Model.Client
/-
Specification of a client session: what its log may look like. Of the model only the data types and the
handlers are used.
-/
namespace Nora.Spec
open R

open Classical in
/-- the message in a payload -/
noncomputable def msgOf (p : Bytes) : Option Message :=
  if h : ∃ m, Reads p m then some h.choose else none

/-- the function with one value changed -/
def set {α β : Type} [DecidableEq α] (f : α → β) (i : α) (v : β) : α → β :=
  fun j => if j = i then v else f j

/-- what an observer of the log knows -/
structure View where
  /-- the open channels: the peer's number for each -/
  peers : UInt32 → Option UInt32
  /-- the process that gets the data sent to a channel -/
  stdins : UInt32 → Option Nat
  /-- the channel of the last request received -/
  current : Option UInt32
  /-- the number of processes asked for -/
  procs : Nat
  /-- for each process: the peer's number of the channel it was started on -/
  homes : Nat → Option UInt32

/-- no channel and no process -/
def View.empty : View := ⟨fun _ => none, fun _ => none, none, 0, fun _ => none⟩

/-- a message from the client: CLOSE closes a channel, EOF its input -/
def View.receive (v : View) : Message → View
  | .channel (.close c) =>
    { v with peers := set v.peers c.recipientChannel none
             stdins := set v.stdins c.recipientChannel none }
  | .channel (.eof e) => { v with stdins := set v.stdins e.recipientChannel none }
  | .channel (.request r) => { v with current := some r.recipientChannel }
  | _ => v

/-- a message to the client: OPEN_CONFIRMATION opens a channel -/
def View.send (v : View) : Message → View
  | .channel (.openConfirmation c) =>
    { v with peers := set v.peers c.senderChannel (some c.recipientChannel)
             stdins := set v.stdins c.senderChannel none }
  | _ => v

/-- an event -/
noncomputable def View.next (v : View) : Event → View
  | .received p => (msgOf p).elim v v.receive
  | .sent p => (msgOf p).elim v v.send
  | .proc (.spawn _ n) =>
    { v with procs := v.procs + 1, homes := set v.homes n (v.current.bind v.peers) }
  | .proc (.started n stdin _ _) =>
    v.current.elim v fun id => { v with stdins := set v.stdins id (if stdin then some n else none) }
  | _ => v

/-- what the events of a session say -/
noncomputable def view (t : List Event) : View := t.foldl View.next View.empty

/-- the least channel number that is not in use -/
def LeastFree (v : View) (id : UInt32) : Prop :=
  v.peers id = none ∧ ∀ j : UInt32, j.toNat < id.toNat → v.peers j ≠ none

/-- `r` is the session request `q` -/
def Asks (r : Chan.Request) (q : SessionRequest) : Prop :=
  ∃ b : Byte, b ≠ 0 ∧ SessionWire b q r.ty r.data

/-- session requests that start a process -/
def runs : SessionRequest → Option SpawnType
  | .shell => some .shell
  | .exec command => some (.exec command)
  | _ => none

/-- session requests that are declined -/
def declined : SessionRequest → Bool
  | .pty .. | .env .. => true
  | _ => false

/-- a reply, if the client wants one -/
def replyIf (want : Bool) (m : Message) : List Event := if want then [.sent (encode m)] else []

/-- the standard input of a process is closed -/
def closing : Option Nat → List Event
  | some n => [.proc (.stdinClosed n)]
  | none => []

/-- CHANNEL_SUCCESS etc. -/
def success (peer : UInt32) : Message := .channel (.success { recipientChannel := peer })
def failure (peer : UInt32) : Message := .channel (.failure { recipientChannel := peer })
def eofMsg (peer : UInt32) : Message := .channel (.eof { recipientChannel := peer })
def closeMsg (peer : UInt32) : Message := .channel (.close { recipientChannel := peer })
def dataMsg (peer : UInt32) (d : Bytes) : Message :=
  .channel (.data { recipientChannel := peer, data := d })

/-- CHANNEL_OPEN_CONFIRMATION: the channel number of the server, and the client's number, window and
packet size -/
def confirm (id : UInt32) (o : Chan.Open) : Message :=
  .channel (.openConfirmation {
    recipientChannel := o.senderChannel
    senderChannel := id
    windowSize := o.windowSize
    maxPacketSize := o.maxPacketSize
    data := [] })

/-- the channel request with an exit status, RFC 4254 section 6.10 -/
def exitMsg (peer : UInt32) (status : UInt32) : Message :=
  .channel (.request {
    recipientChannel := peer
    ty := b! "exit-status"
    wantReply := false
    data := u32 status.toNat })

/-- What is logged after the packet `p` when it is handled completely. `t` are the events of the
session before it, `l0` those before the session. -/
inductive Reaction (H : ConnHandlers) (user : Nat) (l0 t : List Event) (p : Bytes) :
    List Event → Prop
  /-- a channel is opened: with the least number that is not in use -/
  | opened {o id} : Legal (.channel (.open o)) p → LeastFree (view t) id →
    Reaction H user l0 t p [.sent (encode (confirm id o))]
  /-- a process is started -/
  | run {r q ty peer io} : Legal (.channel (.request r)) p →
    (view t).peers r.recipientChannel = some peer → Asks r q → runs q = some ty →
    H.spawn (l0 ++ t ++ [.received p]) user ty = ok io →
    Reaction H user l0 t p (.proc (.spawn ty (view t).procs) ::
      .proc (.started (view t).procs io.stdin io.stdout io.stderr) ::
      (closing ((view t).stdins r.recipientChannel) ++ replyIf r.wantReply (success peer)))
  /-- a request is declined -/
  | decline {r q peer} : Legal (.channel (.request r)) p →
    (view t).peers r.recipientChannel = some peer → Asks r q → declined q = true →
    Reaction H user l0 t p (replyIf r.wantReply (failure peer))
  /-- data is given to the process, which takes `k` bytes of it -/
  | data {d n k} : Legal (.channel (.data d)) p → (view t).peers d.recipientChannel ≠ none →
    (view t).stdins d.recipientChannel = some n →
    H.write (l0 ++ t ++ [.received p]) n d.data = ok k →
    Reaction H user l0 t p [.proc (.stdin n (d.data.take k))]
  /-- no more input -/
  | eof {e} : Legal (.channel (.eof e)) p → (view t).peers e.recipientChannel ≠ none →
    Reaction H user l0 t p (closing ((view t).stdins e.recipientChannel))
  /-- a channel is closed, or one that is not open -/
  | close {c} : Legal (.channel (.close c)) p →
    Reaction H user l0 t p (closing ((view t).stdins c.recipientChannel))
  | ignore {i} : Legal (.ignore i) p → Reaction H user l0 t p []

/-- the process `n` was started with a standard output, which has not ended -/
def Reading (t : List Event) (n : Nat) : Prop :=
  (∃ i e, .proc (.started n i true e) ∈ t) ∧ .proc (.stdout n []) ∉ t

/-- the process `n` was started with a standard error output, which has not ended -/
def ReadingErr (t : List Event) (n : Nat) : Prop :=
  (∃ i o, .proc (.started n i o true) ∈ t) ∧ .proc (.stderr n []) ∉ t

/-- the process `n` was started and has not ended -/
def Running (t : List Event) (n : Nat) : Prop :=
  (∃ i o e, .proc (.started n i o e) ∈ t) ∧ ∀ status, .proc (.exited n status) ∉ t

/-- the process `n` was started with an output, and it has not ended: the server waits for its exit -/
def Watched (t : List Event) (n : Nat) : Prop :=
  (∃ i o e, .proc (.started n i o e) ∈ t ∧ (o || e) = true) ∧
    ∀ status, .proc (.exited n status) ∉ t

/-- What is logged for one thing that happens. `A` are the places where `receive` may be dropped. -/
inductive Block (H : ConnHandlers) (user : Nat) (A : Client.Cut → Prop) (l0 t : List Event) :
    List Event → Prop
  | packet {p b} : Reaction H user l0 t p b → Block H user A l0 t (.received p :: b)
  /-- `receive` is dropped while the handler `spawn` runs -/
  | lostSpawn {p r q ty peer} : A .spawn → Legal (.channel (.request r)) p →
    (view t).peers r.recipientChannel = some peer → Asks r q → runs q = some ty →
    Block H user A l0 t [.received p, .proc (.spawn ty (view t).procs)]
  /-- `receive` is dropped before the process takes the data -/
  | lostData {p d n} : A .stdin → Legal (.channel (.data d)) p →
    (view t).peers d.recipientChannel ≠ none →
    (view t).stdins d.recipientChannel = some n → Block H user A l0 t [.received p]
  /-- output of a process goes to its channel -/
  | stdout {n peer d} : Reading t n → (view t).homes n = some peer → d ≠ [] → d.length ≤ 256 →
    Block H user A l0 t [.proc (.stdout n d), .sent (encode (dataMsg peer d))]
  | stdoutEnd {n peer} : Reading t n → (view t).homes n = some peer →
    Block H user A l0 t
      [.proc (.stdout n []), .sent (encode (eofMsg peer)), .sent (encode (closeMsg peer))]
  | stderr {n peer d} : ReadingErr t n → (view t).homes n = some peer → d ≠ [] → d.length ≤ 256 →
    Block H user A l0 t [.proc (.stderr n d), .sent (encode (dataMsg peer d))]
  | stderrEnd {n peer} : ReadingErr t n → (view t).homes n = some peer →
    Block H user A l0 t [.proc (.stderr n [])]
  /-- a process that has an output has ended -/
  | exit {n peer status} : Watched t n → (view t).homes n = some peer →
    Block H user A l0 t [.proc (.exited n status), .sent (encode (exitMsg peer status))]

/-- messages that are not supported -/
def unsupported : Message → Bool
  | .channel (.open _) | .channel (.request _) | .channel (.data _) | .channel (.eof _)
  | .channel (.close _) | .disconnect _ | .ignore _ => false
  | _ => true

/-- packets that make the server panic -/
inductive FatalPacket (v : View) (p : Bytes) : Prop
  | unparsable : (∀ m, ¬ Reads p m) → FatalPacket v p
  | unsupported {m} : Reads p m → unsupported m = true → FatalPacket v p
  /-- all channel numbers are in use -/
  | full {o} : Legal (.channel (.open o)) p → (∀ id, v.peers id ≠ none) → FatalPacket v p
  /-- the channel is not open -/
  | request {r} : Legal (.channel (.request r)) p → v.peers r.recipientChannel = none →
    FatalPacket v p
  | data {d} : Legal (.channel (.data d)) p → v.peers d.recipientChannel = none → FatalPacket v p
  | eof {e} : Legal (.channel (.eof e)) p → v.peers e.recipientChannel = none → FatalPacket v p
  /-- no process takes the data -/
  | noStdin {d} : Legal (.channel (.data d)) p → v.stdins d.recipientChannel = none →
    FatalPacket v p
  /-- not a session request, or one that is neither run nor declined -/
  | badRequest {r} : Legal (.channel (.request r)) p → (∀ q, ¬ Asks r q) → FatalPacket v p
  | otherRequest {r q} : Legal (.channel (.request r)) p → Asks r q → runs q = none →
    declined q = false → FatalPacket v p

/-- How a session ends, and what is logged then. `W` must hold if a write fails, `O` if a packet
counter is exhausted, `L` if no packet can be received, `F` if output of a process cannot be
read or a process cannot be waited for. -/
inductive Ending (H : ConnHandlers) (user : Nat) (A : Client.Cut → Prop) (W O L F : Prop)
    (l0 t : List Event) : R Client.Stop (Client.St ⊕ Unit) → List Event → Prop
  | disconnect {p d} : Legal (.disconnect d) p →
    Ending H user A W O L F l0 t (ok (.inr ())) [.received p]
  /-- no further packet -/
  | lost {e} : L → Ending H user A W O L F l0 t (err (.recv e)) []
  | write {b q b'} : W → Block H user A l0 t (b ++ .sent q :: b') →
    Ending H user A W O L F l0 t (err .out) (b ++ [.sent q])
  | fatal {p} : FatalPacket (view t) p → Ending H user A W O L F l0 t panic [.received p]
  /-- a handler fails or panics -/
  | spawnFails {p r q ty peer} : Legal (.channel (.request r)) p →
    (view t).peers r.recipientChannel = some peer → Asks r q → runs q = some ty →
    (∀ io, H.spawn (l0 ++ t ++ [.received p]) user ty ≠ ok io) →
    Ending H user A W O L F l0 t panic [.received p, .proc (.spawn ty (view t).procs)]
  | writeFails {p d n} : Legal (.channel (.data d)) p →
    (view t).stdins d.recipientChannel = some n →
    (∀ k, H.write (l0 ++ t ++ [.received p]) n d.data ≠ ok k) →
    Ending H user A W O L F l0 t panic [.received p]
  /-- output of a process cannot be read, or it cannot be waited for -/
  | readFails {n peer} : F → (view t).homes n = some peer → Reading t n ∨ ReadingErr t n ∨ Watched t n →
    Ending H user A W O L F l0 t panic []
  /-- a packet counter is exhausted -/
  | overflow : O → Ending H user A W O L F l0 t panic []
  | sendOverflow {b q b'} : O → Block H user A l0 t (b ++ .sent q :: b') →
    Ending H user A W O L F l0 t panic b

/-- the events of a session that goes on -/
inductive Trace (H : ConnHandlers) (user : Nat) (A : Client.Cut → Prop) (l0 : List Event) :
    List Event → Prop
  | nil : Trace H user A l0 []
  | snoc {t b} : Trace H user A l0 t → Block H user A l0 t b → Trace H user A l0 (t ++ b)

/-- the payloads sent -/
def sentPayloads (t : List Event) : List Bytes :=
  t.filterMap fun e => match e with
    | .sent p => some p
    | _ => none

/-- Why a message is sent after the events `t1`. -/
inductive Cause (t1 : List Event) : Message → Prop
  /-- a channel was just opened by the client -/
  | confirm {t0 q o id} : t1 = t0 ++ [.received q] → Legal (.channel (.open o)) q →
    LeastFree (view t0) id → Cause t1 (confirm id o)
  /-- the last packet was a request, for which a process was just started, and the standard input of the one
  before was closed -/
  | success {t0 q u r x ty peer i o e} : t1 = t0 ++ .received q :: u →
    u = [.proc (.spawn ty (view t0).procs), .proc (.started (view t0).procs i o e)] ++
      closing ((view t0).stdins r.recipientChannel) →
    Legal (.channel (.request r)) q → r.wantReply = true → Asks r x → runs x = some ty →
    (view t0).peers r.recipientChannel = some peer → Cause t1 (success peer)
  /-- the last packet was a request, which is declined -/
  | failure {t0 q r x peer} : t1 = t0 ++ [.received q] →
    Legal (.channel (.request r)) q → r.wantReply = true → Asks r x → declined x = true →
    (view t0).peers r.recipientChannel = some peer → Cause t1 (failure peer)
  /-- a process has written `d` -/
  | stdout {t0 n d peer} : t1 = t0 ++ [.proc (.stdout n d)] → d ≠ [] → d.length ≤ 256 →
    (view t0).homes n = some peer → Reading t0 n → Cause t1 (dataMsg peer d)
  | stderr {t0 n d peer} : t1 = t0 ++ [.proc (.stderr n d)] → d ≠ [] → d.length ≤ 256 →
    (view t0).homes n = some peer → ReadingErr t0 n → Cause t1 (dataMsg peer d)
  /-- the standard output of a process has ended -/
  | eof {t0 n peer} : t1 = t0 ++ [.proc (.stdout n [])] → (view t0).homes n = some peer →
    Reading t0 n → Cause t1 (eofMsg peer)
  | close {t0 n peer} : t1 = t0 ++ [.proc (.stdout n []), .sent (encode (eofMsg peer))] →
    (view t0).homes n = some peer → Reading t0 n → Cause t1 (closeMsg peer)
  /-- a process has ended -/
  | exit {t0 n status peer} : t1 = t0 ++ [.proc (.exited n status)] →
    (view t0).homes n = some peer → Watched t0 n → Cause t1 (exitMsg peer status)

/-- the events before the next packet is received -/
def untilPacket (t : List Event) : List Event :=
  t.takeWhile fun e => match e with
    | .received _ => false
    | _ => true

/-- the replies to requests among the events -/
noncomputable def replies (t : List Event) : List Message :=
  t.filterMap fun e => match e with
    | .sent p => match msgOf p with
      | some (.channel (.success c)) => some (.channel (.success c))
      | some (.channel (.failure c)) => some (.channel (.failure c))
      | _ => none
    | _ => none

/-- the channel data sent to the channel with the peer's number `peer` -/
noncomputable def dataTo (peer : UInt32) (t : List Event) : Bytes :=
  t.flatMap fun e => match e with
    | .sent p => match msgOf p with
      | some (.channel (.data d)) => if d.recipientChannel = peer then d.data else []
      | _ => []
    | _ => []

/-- the output of the processes for which `homes` is `peer`, as it was read -/
def outputFor (homes : Nat → Option UInt32) (peer : UInt32) (t : List Event) : Bytes :=
  t.flatMap fun e => match e with
    | .proc (.stdout n d) => if homes n = some peer then d else []
    | .proc (.stderr n d) => if homes n = some peer then d else []
    | _ => []

/-- the channel data received for the process `n` with an event, after the events that made the view -/
noncomputable def inputOf (n : Nat) (v : View) : Event → Bytes
  | .received p => match msgOf p with
    | some (.channel (.data d)) => if v.stdins d.recipientChannel = some n then d.data else []
    | _ => []
  | _ => []

/-- the channel data received for the process `n`, after the events that made the view -/
noncomputable def inputs (n : Nat) : View → List Event → Bytes
  | _, [] => []
  | v, e :: t => inputOf n v e ++ inputs n (v.next e) t

/-- what the process `n` has taken as its standard input -/
def taken (n : Nat) (t : List Event) : Bytes :=
  t.flatMap fun e => match e with
    | .proc (.stdin m d) => if m = n then d else []
    | _ => []

/-- the peer's number in a channel message -/
def recipient : Message → Option UInt32
  | .channel (.openConfirmation c) => some c.recipientChannel
  | .channel (.openFailure c) => some c.recipientChannel
  | .channel (.windowAdjust c) => some c.recipientChannel
  | .channel (.data c) => some c.recipientChannel
  | .channel (.extendedData c) => some c.recipientChannel
  | .channel (.eof c) => some c.recipientChannel
  | .channel (.close c) => some c.recipientChannel
  | .channel (.request c) => some c.recipientChannel
  | .channel (.success c) => some c.recipientChannel
  | .channel (.failure c) => some c.recipientChannel
  | _ => none

end Nora.Spec
