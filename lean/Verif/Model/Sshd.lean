import Verif.Model.Client
import Verif.Model.Utf8
/-
Model of the example server, nora_sshd/src/main.rs: its handlers.
-/
namespace Nora
open R

/-- What is used of `ed25519_dalek` 1.0.1: which bytes are public keys (`PublicKey::from_bytes`) and
signatures (`Signature::try_from`), and `verify`. Only the lengths are assumed. -/
structure Ed25519 where
  isKey : Bytes → Bool
  isKey_length : ∀ k, isKey k = true → k.length = 32
  isSignature : Bytes → Bool
  isSignature_length : ∀ s, isSignature s = true → s.length = 64
  verify : (key message signature : Bytes) → Bool

namespace Sshd

/-- `Handlers::public_key_exists`, nora_sshd/src/main.rs:58-70 -/
def publicKeyExists (_user _service algorithm _key : Bytes) : R Unit Unit :=
  if algorithm = b! "ssh-ed25519" then .ok () else .err ()

/-- `Handlers::authenticate`, main.rs:72-96. Of the `User` only the name is modelled. -/
def authenticate (E : Ed25519) (user _service : Bytes) : AuthArg → R Unit Bytes
  | .none => .err ()
  | .password _ => .panic -- `todo!()`
  | .publicKey algorithm key signature message =>
    if algorithm ≠ b! "ssh-ed25519" then .err ()
    else if !E.isKey key then .err ()
    else if !E.isSignature signature then .err ()
    else if !E.verify key message signature then .err ()
    else (Utf8.fromUtf8 user).unwrap

/-- `u8::is_ascii_whitespace` -/
def isWhite (b : Byte) : Bool := b = 32 || b = 9 || b = 10 || b = 12 || b = 13

/-- `command.split(|c| c.is_ascii_whitespace())`: the first piece and the others -/
def split : Bytes → Bytes × List Bytes
  | [] => ([], [])
  | b :: t => if isWhite b then ([], (split t).1 :: (split t).2) else (b :: (split t).1, (split t).2)

/-- The program and its arguments that `Handlers::spawn` runs, main.rs:110-111, 127-136. `shell` is the
environment variable `SHELL`. -/
def commandLine (shell : Option Bytes) : SpawnType → R Unit (List Bytes)
  | .shell =>
    match shell with
    | some s => .ok [s]
    | none => .panic
  | .exec command =>
    match ((split command).1 :: (split command).2).filter (fun s => !s.isEmpty) with
    | [] => .panic
    | bin :: args => .ok (bin :: args)

/-- the environment: `SHELL`, whether a program can be started, and the pipes to the processes -/
structure Sys where
  shell : Option Bytes
  start : List Event → List Bytes → Bool
  write : List Event → Nat → Bytes → R Unit Nat

/-- `Handlers::spawn`, main.rs:98-149. All three streams are pipes, so `take` gives them. -/
def spawn (S : Sys) (log : List Event) (ty : SpawnType) : R Unit IoSet := do
  let argv ← commandLine S.shell ty
  if S.start log argv then .ok { stdin := true, stdout := true, stderr := true }
  else .panic

/-- the exit status of a process (main.rs:106) that has ended by itself with `code`, or by a signal
(`none`) -/
def exitStatus (code : Option Int32) : UInt32 := (code.getD 0).toUInt32

/-- the handlers; `number` gives the number that stands for a `User` -/
def handlers (E : Ed25519) (number : Bytes → Nat) : Handlers where
  publicKeyExists _ := publicKeyExists
  authenticate _ user service arg := (authenticate E user service arg).map number

/-- the handlers of a session; nothing depends on the user -/
def connHandlers (S : Sys) : ConnHandlers where
  spawn log _ ty := spawn S log ty
  write := S.write

end Sshd

end Nora
