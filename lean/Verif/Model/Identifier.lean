import Verif.Model.Io
/-
Model of nora_ssh/src/identifier.rs and nora_ssh_core/src/identifier.rs.
-/
namespace Nora
open R

/-- `Identifier::MAX_LEN`, nora_ssh_core/src/identifier.rs:5 -/
def Ident.maxLen : Nat := 253

/-- `Identifier::new`, nora_ssh_core/src/identifier.rs:7-9 -/
def Ident.new (ident : Bytes) : R Unit Bytes :=
  if ident.length ≤ Ident.maxLen then .ok ident else .err ()

/-- `ParseIdentError`, nora_ssh/src/identifier.rs:96-101 -/
inductive ParseIdentError where
  | identifierTooLong | incompatibleProtocol | io
  deriving DecidableEq, Repr

/-- `State`, nora_ssh/src/identifier.rs:16-23 -/
inductive Ident.State where
  | s | ss | ssh | ignore | eolCr | eolLf
  deriving DecidableEq, Repr

/-- one step of the first loop, nora_ssh/src/identifier.rs:30-39; `none` is `break` -/
def Ident.step (st : Ident.State) (b : Byte) : Option Ident.State :=
  match st with
  | .eolLf => if b = 83 then some .s else some .ignore
  | .s => if b = 83 then some .ss else some .ignore
  | .ss => if b = 83 then some .ss else if b = 72 then some .ssh else some .ignore
  | .ssh => if b = 45 then none else some .ignore
  | .ignore => if b = 13 then some .eolCr else some .ignore
  | .eolCr => if b = 10 then some .eolLf else some .ignore

/-- the first loop, nora_ssh/src/identifier.rs:24-40, one byte read per iteration; returns what is
left of the stream after the `break`, or an error at the end of the stream. Recursion on the stream:
every iteration consumes one byte. -/
def Ident.skip (st : Ident.State) : Bytes → R ParseIdentError Bytes
  | [] => .err .io
  | b :: t =>
    match Ident.step st b with
    | none => .ok t
    | some st => Ident.skip st t

/-- `push`, nora_ssh/src/identifier.rs:52-59: `acc` is `buf[..i]`; the buffer has 253 bytes -/
def Ident.push (acc : Bytes) (c : Byte) : R ParseIdentError Bytes :=
  if acc.length < Ident.maxLen then .ok (acc ++ [c]) else .err .identifierTooLong

/-- one step of the second loop, nora_ssh/src/identifier.rs:66-82; `none` is `break` -/
def Ident.step2 (gotCr : Bool) (acc : Bytes) (b : Byte) :
    R ParseIdentError (Option (Bool × Bytes)) :=
  match gotCr with
  | false =>
    if b = 13 then .ok (some (true, acc))
    else do
      let acc ← Ident.push acc b
      .ok (some (false, acc))
  | true =>
    if b = 13 then do
      let acc ← Ident.push acc 13
      .ok (some (true, acc))
    else if b = 10 then .ok none
    else do
      let acc ← Ident.push acc 13
      let acc ← Ident.push acc b
      .ok (some (false, acc))

/-- the second loop, nora_ssh/src/identifier.rs:61-83. Returns `buf[..i]` and the rest of the
stream. -/
def Ident.collect (gotCr : Bool) (acc : Bytes) : Bytes → R ParseIdentError (Bytes × Bytes)
  | [] => .err .io
  | b :: t =>
    match Ident.step2 gotCr acc b with
    | .ok none => .ok (acc, t)
    | .ok (some (cr, acc)) => Ident.collect cr acc t
    | .err e => .err e
    | .panic => .panic

/-- `b"SSH-2.0-".iter().copied().try_for_each(&mut push)?`, nora_ssh/src/identifier.rs:60 -/
def Ident.pushAll (acc : Bytes) : Bytes → R ParseIdentError Bytes
  | [] => .ok acc
  | c :: t => do
    let acc ← Ident.push acc c
    Ident.pushAll acc t

/-- `parse` on a stream, nora_ssh/src/identifier.rs:5-86. -/
def Ident.parseStream (inp : Bytes) : R ParseIdentError (Bytes × Bytes) := do
  let inp ← Ident.skip .eolLf inp
  let (b, inp) ← (Nora.split inp 4).okOr .io
  if b = b! "2.0-" then do
    let acc ← Ident.pushAll [] (b! "SSH-2.0-")
    let (acc, inp) ← Ident.collect false acc inp
    let id ← (Ident.new acc).okOr .identifierTooLong
    .ok (id, inp)
  else .err .incompatibleProtocol

/-- `parse`, nora_ssh/src/identifier.rs:5-86, as a computation on the connection. What is left of the
input after an error is not modelled (every caller gives up the connection). -/
def Ident.parse : M ParseIdentError Bytes := fun s =>
  match Ident.parseStream s.inp with
  | .ok (id, rest) => (.ok id, { s with inp := rest })
  | .err e => (.err e, { s with inp := [] })
  | .panic => (.panic, s)

/-- `send`, nora_ssh/src/identifier.rs:88-94 -/
def Ident.send (id : Bytes) : M Unit Unit := do
  M.writeAll id
  M.writeAll (b! "\r\n")

end Nora
