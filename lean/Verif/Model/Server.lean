import Verif.Model.Client
/-
Model of `Server::start`, nora_ssh/src/server.rs:59-78: any number of clients. All futures are polled by one
task, in any order. A client shares with the others only the host key and the handlers (`&self`).

What the futures do between two points where they wait is not divided further than into the steps of
`Phase.step`: as they share nothing that changes, it makes no difference to them when the parts of a step are
done.
-/
namespace Nora
open R

namespace Server

/-- where the future of a client is: in `authenticate_new_client` before the handshake, before the service
request, in its loop; in `Client::start`; or gone -/
inductive Phase where
  | new
  | service (c : HostClient)
  | auth (sid : Bytes) (st : AuthSt)
  | session (user : Nat) (st : Client.St)
  | ended

/-- the handlers, the host key and the identifier -/
structure Config where
  K : Crypto
  H : Handlers
  C : ConnHandlers
  ident : Bytes

variable (cfg : Config)

/-- One step of a client: the parts of `authenticate_new_client` (server.rs:81-241), then one iteration of
the loop of `Client::start` (server.rs:304-351), for which `a` says what happens. An error ends the client:
server.rs:71 and 75. -/
def Phase.step (a : Client.Step) : Phase → M Unit Phase
  | .new => do
    let c ← (Host.handleNewClient cfg.K cfg.ident).mapErr (fun _ => ())
    pure (.service c)
  | .service c => do
    let st ← Server.service cfg.K
      { send := c.sendCipher, receive := c.receiveCipher,
        pktBuf := List.replicate 35000 0, mini := List.replicate 256 0 }
    pure (.auth c.sessionIdentifier st)
  | .auth sid st => do
    match ← attempt cfg.K cfg.H sid st with
    | .inl st => pure (.auth sid st)
    | .inr c => pure (.session c.user (Client.start c))
  | .session user st => do
    match ← (Client.step cfg.K cfg.C user st a).mapErr (fun _ => ()) with
    | .inl st => pure (.session user st)
    | .inr () => pure .ended
  | .ended => pure .ended

/-- a client and its connection -/
structure Conn where
  phase : Phase
  io : IoSt

/-- a step of a client, and whether it panics -/
def Conn.poll (a : Client.Step) (c : Conn) : Conn × Bool :=
  match c.phase.step cfg a c.io with
  | (.ok phase, io) => (⟨phase, io⟩, false)
  | (.err (), io) => (⟨.ended, io⟩, false)
  | (.panic, io) => (⟨.ended, io⟩, true)

/-- the server: all clients, in the order of their connections, and whether it is running -/
structure State where
  conns : List Conn
  running : Bool

/-- what happens on the branches of `select!`, server.rs:64-76 -/
inductive Op where
  /-- the handler `accept` returns a connection -/
  | accept (s : IoSt)
  /-- the handler `accept` panics -/
  | acceptPanics
  /-- the client `i` goes on -/
  | poll (i : Nat) (a : Client.Step)

/-- one thing that happens. A panic unwinds through `select!` and `start`: the server stops, all clients
are dropped. -/
def State.step (s : State) (op : Op) : State :=
  if s.running then
    match op with
    | .accept io => { s with conns := s.conns ++ [⟨.new, io⟩] }
    | .acceptPanics => { s with running := false }
    | .poll i a =>
      match s.conns[i]? with
      | none => s
      | some c => { conns := s.conns.set i (c.poll cfg a).1, running := !(c.poll cfg a).2 }
  else s

/-- the loop of `start`, server.rs:63-77, for a finite schedule -/
def run (ops : List Op) : State := ops.foldl (State.step cfg) ⟨[], true⟩

end Server

end Nora
