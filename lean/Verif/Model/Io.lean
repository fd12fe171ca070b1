import Verif.Model.Packet
/-
The connection of one client as seen by the code: `futures::io::{AsyncReadExt, AsyncWriteExt}` on an
`AsyncRead + AsyncWrite`, the random generator, and a log of what happened.
-/
namespace Nora
open R

/-- argument of the `authenticate` handler (`Auth`, nora_ssh/src/auth.rs:1-5) -/
inductive AuthArg where
  | none
  | password (password : Bytes)
  | publicKey (algorithm key signature message : Bytes)
  deriving DecidableEq, Repr

/-- `SpawnType`, nora_ssh/src/server.rs:551-554 -/
inductive SpawnType where
  | shell
  | exec (command : Bytes)
  deriving DecidableEq, Repr

/-- What is recorded about the processes of a session. A process is named by a number: how many calls
of `spawn` there were before. -/
inductive ProcEvent where
  /-- the handler `spawn` was called -/
  | spawn (ty : SpawnType) (proc : Nat)
  /-- it returned `Ok`, with these streams -/
  | started (proc : Nat) (stdin stdout stderr : Bool)
  /-- a write to the standard input of a process took these bytes -/
  | stdin (proc : Nat) (data : Bytes)
  /-- the standard input of a process was dropped -/
  | stdinClosed (proc : Nat)
  /-- a read of the standard output returned; no bytes: it has ended -/
  | stdout (proc : Nat) (data : Bytes)
  /-- a read of the standard error returned; no bytes: it has ended -/
  | stderr (proc : Nat) (data : Bytes)
  /-- waiting for the process returned -/
  | exited (proc : Nat) (status : UInt32)
  deriving DecidableEq, Repr

/-- What the log records. `User` values of the application are represented by a number. -/
inductive Event where
  /-- a payload was handed to the encrypted transport (and its packet written, perhaps not fully) -/
  | sent (payload : Bytes)
  /-- a payload was delivered by the encrypted transport -/
  | received (payload : Bytes)
  /-- handler call `public_key_exists` and whether it returned `Ok` -/
  | probe (user service algorithm key : Bytes) (ok : Bool)
  /-- handler call `authenticate` and its result -/
  | auth (user service : Bytes) (arg : AuthArg) (result : Option Nat)
  /-- something about a process (nothing during authentication) -/
  | proc (e : ProcEvent)
  deriving DecidableEq, Repr

/-- State of a connection. -/
structure IoSt where
  /-- the bytes the peer will still send before the stream ends -/
  inp : Bytes
  /-- the bytes written so far -/
  out : Bytes
  /-- how many more bytes can be written before the transport fails; `none`: it never fails -/
  wcap : Option Nat
  /-- the random generator -/
  rng : Tape
  /-- log, oldest first -/
  log : List Event

/-- Computation on a connection: outcome and the state it leaves, also on error and panic. -/
def M (ε α : Type) : Type := IoSt → R ε α × IoSt

namespace M
variable {ε ε' α β : Type}

protected def bind (x : M ε α) (f : α → M ε β) : M ε β := fun s =>
  match x s with
  | (.ok a, s') => f a s'
  | (.err e, s') => (.err e, s')
  | (.panic, s') => (.panic, s')

instance : Monad (M ε) where
  pure a := fun s => (.ok a, s)
  bind := M.bind

/-- a computation that does not touch the connection -/
def lift (x : R ε α) : M ε α := fun s => (x, s)

/-- `.map_err(f)` -/
def mapErr (f : ε → ε') (x : M ε α) : M ε' α := fun s => ((x s).1.mapErr f, (x s).2)

/-- `.unwrap()` -/
def unwrap (x : M ε α) : M ε' α := fun s => ((x s).1.unwrap, (x s).2)

/-- `Err(e)` -/
def fail (e : ε) : M ε α := fun s => (.err e, s)

/-- a panic, e.g. `todo!()` -/
def panic : M ε α := fun s => (.panic, s)

/-- `read_exact` of `n` bytes: at the end of the stream the remaining bytes are consumed and
`UnexpectedEof` is returned -/
def readExact (n : Nat) : M Unit Bytes := fun s =>
  if n ≤ s.inp.length then (.ok (s.inp.take n), { s with inp := s.inp.drop n })
  else (.err (), { s with inp := [] })

/-- `write_all`: on failure some prefix was written -/
def writeAll (d : Bytes) : M Unit Unit := fun s =>
  match s.wcap with
  | none => (.ok (), { s with out := s.out ++ d })
  | some n =>
    if d.length ≤ n then (.ok (), { s with out := s.out ++ d, wcap := some (n - d.length) })
    else (.err (), { s with out := s.out ++ d.take n, wcap := some 0 })

/-- use the random generator -/
def withRng (f : Tape → R ε (α × Tape)) : M ε α := fun s =>
  match f s.rng with
  | .ok (a, t) => (.ok a, { s with rng := t })
  | .err e => (.err e, s)
  | .panic => (.panic, s)

/-- the log so far -/
def getLog : M ε (List Event) := fun s => (.ok s.log, s)

/-- record an event -/
def logEvent (e : Event) : M ε Unit := fun s => (.ok (), { s with log := s.log ++ [e] })

end M

end Nora
