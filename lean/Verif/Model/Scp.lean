import Verif.Model.Utf8
/-
Model of nora_scp/src/main.rs: the program `scp` that the ssh server runs on behalf of a remote `scp`.

Paths and arguments are byte strings (`OsStr`). `usize` has 64 bits.
-/
namespace Nora.Scp
open Nora R

/-- what the program does, oldest first -/
inductive Ev where
  /-- bytes taken from the standard input -/
  | read (bs : Bytes)
  /-- `'\0'` written to the standard output -/
  | ack
  /-- other bytes written to the standard output -/
  | out (bs : Bytes)
  /-- `fs::create_dir_all(p)` -/
  | createDirAll (p : Bytes)
  /-- `fs::create_dir_all` of the parent of `p`, if it has one -/
  | createParents (p : Bytes)
  /-- `env::set_current_dir(p)` -/
  | chdir (p : Bytes)
  /-- `File::create(p)`: the file is empty now -/
  | create (p : Bytes)
  /-- bytes written to the file created last -/
  | write (bs : Bytes)
  /-- `File::open(p)` -/
  | openFile (p : Bytes)
  deriving DecidableEq, Repr

/-- The operating system: which operations succeed, depending on everything that has happened, and what
files contain. -/
structure Os where
  ok : List Ev → Ev → Bool
  /-- of a failing `write_all`, how many bytes are written -/
  part : List Ev → Nat
  /-- what reading the file `p` gives, and whether it gets to the end without an error -/
  content : Bytes → Bytes × Bool

/-- the errors of `start` (`Box<dyn Error>`), by cause -/
inductive Err where
  | io
  | utf8
  | missing
  | size
  | mode
  | nul
  | path
  | file
  | flag
  deriving DecidableEq, Repr

/-- the rest of the standard input, and what has happened -/
structure St where
  inp : Bytes
  log : List Ev
  deriving DecidableEq, Repr

/-- a computation of the program -/
def S (α : Type) : Type := St → R Err α × St

namespace S
variable {α β : Type}

protected def bind (x : S α) (f : α → S β) : S β := fun s =>
  match x s with
  | (.ok a, s') => f a s'
  | (.err e, s') => (.err e, s')
  | (.panic, s') => (.panic, s')

instance : Monad S where
  pure a := fun s => (.ok a, s)
  bind := S.bind

/-- a computation without effects -/
def lift (x : R Err α) : S α := fun s => (x, s)

/-- an operation of the operating system -/
def op (os : Os) (e : Ev) : S Unit := fun s =>
  if os.ok s.log e then (.ok (), { s with log := s.log ++ [e] }) else (.err .io, s)

/-- `f.write_all(bs)` -/
def write (os : Os) (bs : Bytes) : S Unit := fun s =>
  if os.ok s.log (.write bs) then (.ok (), { s with log := s.log ++ [.write bs] })
  else (.err .io, { s with log := s.log ++ [.write (bs.take (os.part s.log))] })

/-- `stdin.read(&mut buf[..1])`: no byte at the end of the input -/
def readByte : S (Option Byte) := fun s =>
  match s.inp with
  | [] => (.ok none, s)
  | b :: t => (.ok (some b), { inp := t, log := s.log ++ [.read [b]] })

/-- the bytes up to and including the first newline, or all -/
def line : Bytes → Bytes
  | [] => []
  | b :: t => if b = 10 then [b] else b :: line t

/-- `stdin.read_until(b'\n', header)`: what it appends to `header` -/
def readLine : S Bytes := fun s =>
  (.ok (line s.inp), { inp := s.inp.drop (line s.inp).length, log := s.log ++ [.read (line s.inp)] })

/-- `stdin.read_exact` of `n` bytes -/
def readExact (n : Nat) : S Bytes := fun s =>
  if n ≤ s.inp.length then
    (.ok (s.inp.take n), { inp := s.inp.drop n, log := s.log ++ [.read (s.inp.take n)] })
  else (.err .io, { inp := [], log := s.log ++ [.read s.inp] })

end S

/-- `str.split(' ')` -/
def split : Bytes → Bytes × List Bytes
  | [] => ([], [])
  | b :: t =>
    if b = 32 then ([], (split t).1 :: (split t).2) else (b :: (split t).1, (split t).2)

/-- the loop of `usize::from_str_radix(_, 10)` in `core::num`: invalid digits and overflow are errors -/
def digits : (acc : Nat) → Bytes → R Unit Nat
  | acc, [] => .ok acc
  | acc, b :: t =>
    if 48 ≤ b && b ≤ 57 then
      if acc * 10 < 2 ^ 64 then
        if acc * 10 + (b.toNat - 48) < 2 ^ 64 then digits (acc * 10 + (b.toNat - 48)) t
        else .err ()
      else .err ()
    else .err ()

/-- `str.parse::<usize>()`: as `usize::from_str_radix(_, 10)` in `core::num` a leading `+` is allowed, a
sign alone is not -/
def parseUsize (s : Bytes) : R Unit Nat :=
  match s with
  | [] => .err ()
  | [43] => .err ()
  | [45] => .err ()
  | 43 :: t => digits 0 t
  | s => digits 0 s

/-- `read_header`, main.rs:81-107: mode, size and file name; `none` at the end of the input -/
def readHeader : S (Option (Bytes × Nat × Bytes)) := do
  match ← S.readByte with
  | none => pure none
  | some c =>
    if c = 67 then do
      let rest ← S.readLine
      let header ← S.lift ((Utf8.fromUtf8 (c :: rest)).okOr .utf8)
      let (mode, parts) := split header
      match parts with
      | size :: file :: _ => do
        let file := if file.getLast? = some 10 then file.dropLast else file
        let size ← S.lift ((parseUsize size).okOr .size)
        pure (some (mode, size, file))
      | _ => S.lift (.err .missing)
    else if c = 68 then S.lift .panic
    else S.lift (.err .mode)

/-- the loop of `transfer_file`, main.rs:110-115, with the buffer of main.rs:74 -/
def copy (os : Os) (size : Nat) : S Unit :=
  if size = 0 then pure ()
  else do
    let l := min size (1 <<< 15)
    let bs ← S.readExact l
    S.write os bs
    copy os (size - l)
termination_by size
decreasing_by
  have : (1 <<< 15 : Nat) = 32768 := rfl
  omega

/-- `transfer_file`, main.rs:109-123 -/
def transferFile (os : Os) (size : Nat) : S Unit := do
  copy os size
  let b ← S.readExact 1
  if b ≠ [0] then S.lift (.err .nul)
  else S.op os .ack

/-- one iteration of the loop over the headers in directory mode, main.rs:134-142; whether it goes on -/
def dirFile (os : Os) : S Bool := do
  match ← readHeader with
  | none => pure false
  | some (_, size, file) => do
    S.op os (.create file)
    S.op os .ack
    transferFile os size
    pure true

/-- at most `n` iterations; see `dirLoop` -/
def dirLoopN (os : Os) : Nat → S Unit
  | 0 => S.lift .panic
  | n + 1 => do
    match ← dirFile os with
    | true => dirLoopN os n
    | false => pure ()

/-- the loop over the headers in directory mode, main.rs:134-142. Every iteration that goes on has
consumed input, so more iterations than bytes are not possible; `dirLoop_eq` shows that this is the
loop. -/
def dirLoop (os : Os) : S Unit := fun s => dirLoopN os (s.inp.length + 1) s

/-- one iteration of the loop over the paths, main.rs:146-158 -/
def pathFile (os : Os) (path : Bytes) : S Unit := do
  match ← readHeader with
  | none => S.lift (.err .file)
  | some (_, size, _) => do
    S.op os (.createParents path)
    S.op os (.create path)
    S.op os .ack
    transferFile os size

/-- the loop over the paths, main.rs:145-159 -/
def pathLoop (os : Os) : List Bytes → S Unit
  | [] => pure ()
  | p :: ps => do
    pathFile os p
    pathLoop os ps

/-- `receive`, main.rs:66-162 -/
def receive (os : Os) (to : List Bytes) (makeDir : Bool) : S Unit := do
  if makeDir then
    match to with
    | [dir] => do
      S.op os (.createDirAll dir)
      S.op os (.chdir dir)
      S.op os .ack
      dirLoop os
    | _ => S.lift (.err .path)
  else do
    S.op os .ack
    pathLoop os to

/-- the components of a path that are not empty or `.` -/
def components (p : Bytes) : List Bytes :=
  let rec go : Bytes → Bytes × List Bytes
    | [] => ([], [])
    | b :: t => if b = 47 then ([], (go t).1 :: (go t).2) else (b :: (go t).1, (go t).2)
  ((go p).1 :: (go p).2).filter (fun c => c ≠ [] && c ≠ [46])

/-- `Path::file_name`: the last component, unless it is `..` -/
def fileName (p : Bytes) : R Unit Bytes :=
  match (components p).getLast? with
  | some c => if c = [46, 46] then .err () else .ok c
  | none => .err ()

/-- one iteration of `send`, main.rs:167-181. `println!` panics if it cannot write. The loop of
main.rs:176-181 copies what reading the file gives. -/
def sendFile (os : Os) (path : Bytes) : S Unit := do
  S.op os (.openFile path)
  let name ← S.lift (fileName path).unwrap
  let name ← S.lift ((Utf8.fromUtf8 name).okOr .utf8)
  fun s => match S.op os (.out (b! "C0644 42 " ++ name ++ [10])) s with
    | (.err _, s) => (.panic, s)
    | r => r
  S.op os (.out (os.content path).1)
  if (os.content path).2 then pure () else S.lift (.err .io)

/-- `send`, main.rs:164-184 -/
def send (os : Os) : List Bytes → S Unit
  | [] => pure ()
  | p :: ps => do
    sendFile os p
    send os ps

/-- `Mode`, main.rs:40-44 -/
inductive Mode where
  | client
  | send
  | receive
  deriving DecidableEq, Repr

/-- the loop over the arguments, main.rs:49-57: mode, `make_dir` and the paths. Arguments that are not
UTF-8 are paths. -/
def parseArgs : List Bytes → Mode × Bool × List Bytes → R Err (Mode × Bool × List Bytes)
  | [], a => .ok a
  | a :: as, (mode, makeDir, paths) =>
    if a = b! "-d" then parseArgs as (mode, true, paths)
    else if a = b! "-f" then parseArgs as (.send, makeDir, paths)
    else if a = b! "-t" then parseArgs as (.receive, makeDir, paths)
    else if Utf8.valid a && (b! "-").isPrefixOf a then .err .flag
    else parseArgs as (mode, makeDir, paths ++ [a])

/-- `start`, main.rs:39-64; `main` (main.rs:28-37) prints the error -/
def start (os : Os) (args : List Bytes) : S Unit := do
  let (mode, makeDir, paths) ← S.lift (parseArgs args (.client, false, []))
  match mode with
  | .receive => receive os paths makeDir
  | .send => send os paths
  | .client => S.lift .panic

/-- The exit status of the program, main.rs:28-37: `main` prints the error of `start` and returns, so the status
is 0; the runtime of rust exits with 101 if `main` panics. -/
def exitStatus : R Err Unit → Nat
  | .ok _ => 0
  | .err _ => 0
  | .panic => 101

end Nora.Scp
