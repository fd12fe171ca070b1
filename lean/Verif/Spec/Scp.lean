import Verif.Model.Scp
import Verif.Spec.Wire
/-
What an `scp` session looks like, for C54-C57: headers, files on the wire, and what the log of a receiver
says about files and acknowledgements.
-/
namespace Nora.Spec
open Nora.Scp

/-- `ds` are decimal digits with the value `n` -/
def Decimal (ds : Bytes) (n : Nat) : Prop :=
  ds ≠ [] ∧ (∀ d ∈ ds, 48 ≤ d.toNat ∧ d.toNat ≤ 57) ∧
    n = ds.foldl (fun a d => 10 * a + (d.toNat - 48)) 0

/-- a number in decimal -/
def decimal (n : Nat) : Bytes :=
  if n < 10 then [UInt8.ofNat (48 + n)] else decimal (n / 10) ++ [UInt8.ofNat (48 + n % 10)]

/-- no spaces or newlines -/
def Plain (s : Bytes) : Prop := (32 : Byte) ∉ s ∧ (10 : Byte) ∉ s

/-- the header `C<mode> <size> <name>` with a newline -/
def scpHeader (mode size name : Bytes) : Bytes :=
  b! "C" ++ mode ++ b! " " ++ size ++ b! " " ++ name ++ [10]

/-- `l` is the first line of `l ++ rest`: it ends with the first newline, or there is none -/
def Line (l rest : Bytes) : Prop :=
  (10 : Byte) ∉ l.dropLast ∧ (l.getLast? = some 10 ∨ rest = [])

/-- The lines that are understood as headers: three fields separated by spaces, perhaps more fields. The
first begins with `C`. The second is a decimal number, perhaps with a `+`. The third is the name, perhaps
with a newline. -/
def HeaderLine (hdr mode : Bytes) (size : Nat) (name : Bytes) : Prop :=
  ∃ m ds file more, mode = 67 :: m ∧ hdr = mode ++ 32 :: ds ++ 32 :: file ++ more ∧
    (32 : Byte) ∉ mode ∧ (32 : Byte) ∉ ds ∧ (32 : Byte) ∉ file ∧
    (more = [] ∨ more.head? = some 32) ∧
    (Decimal ds size ∨ ∃ t, ds = 43 :: t ∧ Decimal t size) ∧ size < 2 ^ 64 ∧
    (file = name ∧ file.getLast? ≠ some 10 ∨ file = name ++ [10]) ∧ Utf8 hdr

/-- a file on the wire: its header and content -/
structure Sent where
  hdr : Bytes
  content : Bytes

/-- what the sender sends for a file -/
def Sent.wire (f : Sent) : Bytes := f.hdr ++ f.content ++ [0]

/-- what the sender sends for files -/
def wires (fs : List Sent) : Bytes := (fs.map Sent.wire).flatten

/-- the header announces the length of the content, and a name -/
def Announces (f : Sent) (name : Bytes) : Prop :=
  ∃ mode, HeaderLine f.hdr mode f.content.length name ∧ f.hdr.getLast? = some 10 ∧
    (10 : Byte) ∉ f.hdr.dropLast

/-- The bytes that must have come before an acknowledgement, if `pos` bytes have come before the files:
each header is acknowledged, and each file. -/
def points (pos : Nat) : List Sent → List Nat
  | [] => []
  | f :: fs => (pos + f.hdr.length) :: (pos + f.wire.length) :: points (pos + f.wire.length) fs

/-- What a log says: how many bytes have been read, how many had been read at each acknowledgement, and
the files created and their contents. -/
structure Scan where
  pos : Nat
  acks : List Nat
  files : List (Bytes × Bytes)
  deriving DecidableEq, Repr

/-- the content of the last file grows -/
def growLast (bs : Bytes) : List (Bytes × Bytes) → List (Bytes × Bytes)
  | [] => []
  | [(p, c)] => [(p, c ++ bs)]
  | f :: fs => f :: growLast bs fs

def Scan.step (sc : Scan) : Ev → Scan
  | .read bs => { sc with pos := sc.pos + bs.length }
  | .ack => { sc with acks := sc.acks ++ [sc.pos] }
  | .create p => { sc with files := sc.files ++ [(p, [])] }
  | .write bs => { sc with files := growLast bs sc.files }
  | _ => sc

def scan (log : List Ev) : Scan := log.foldl Scan.step ⟨0, [], []⟩

/-- everything the program wrote to its standard output -/
def output : List Ev → Bytes
  | [] => []
  | .ack :: t => 0 :: output t
  | .out bs :: t => bs ++ output t
  | _ :: t => output t

/-- an operating system in which nothing fails -/
def Works (os : Os) : Prop := ∀ log e, os.ok log e = true

/-- the name of a file in the current directory -/
def Inside (name : Bytes) : Prop :=
  name ≠ [] ∧ name ≠ b! "." ∧ name ≠ b! ".." ∧ (47 : Byte) ∉ name

end Nora.Spec
