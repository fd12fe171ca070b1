/-
Base of the model: bytes, outcomes of Rust functions, slices, big-endian integers.
Models the parts of the Rust language / `core` used throughout the repo.
-/
namespace Nora

abbrev Byte := UInt8
abbrev Bytes := List UInt8

/-- `b! "text"`: the bytes of an ASCII literal, as Rust's `b"text"`. -/
syntax "b!" str : term
macro_rules
  | `(b! $s:str) => do
    let elems := (s.getString.toUTF8.toList.map
      (fun b => Lean.Syntax.mkNumLit (toString b.toNat))).toArray
    `(([$elems,*] : List UInt8))

/-- Outcome of a Rust function returning `Result<α, ε>`; `Option<α>` is `R Unit α`.
`panic` is any panic: `unwrap` on `None`/`Err`, `todo!()`, slice index out of range,
arithmetic underflow. -/
inductive R (ε : Type) (α : Type) where
  | ok (a : α)
  | err (e : ε)
  | panic
  deriving DecidableEq, Repr

namespace R
variable {ε ε' α β : Type}

/-- Sequencing (`?` on `Err`/`None`, unwinding on panic). -/
protected def bind (x : R ε α) (f : α → R ε β) : R ε β :=
  match x with
  | ok a => f a
  | err e => err e
  | panic => panic

instance : Monad (R ε) where
  pure := ok
  bind := R.bind

/-- `Option::ok_or` / `Result::map_err` -/
def mapErr (f : ε → ε') (x : R ε α) : R ε' α :=
  match x with
  | ok a => ok a
  | err e => err (f e)
  | panic => panic

/-- `Option::ok_or(e)` / `Result::map_err(|_| e)` -/
def okOr (x : R ε α) (e : ε') : R ε' α := x.mapErr (fun _ => e)

/-- `.unwrap()` -/
def unwrap (x : R ε α) : R ε' α :=
  match x with
  | ok a => ok a
  | err _ => panic
  | panic => panic

/-- `Option::map` / `Result::map` -/
protected def map (f : α → β) (x : R ε α) : R ε β :=
  match x with
  | ok a => ok (f a)
  | err e => err e
  | panic => panic

/-- `cond.then(|| ()).ok_or(e)?` -/
def guardE (c : Bool) (e : ε) : R ε Unit := if c then ok () else err e

/-- an assertion whose failure is a panic -/
def assertP (c : Bool) : R ε Unit := if c then ok () else panic

end R

/-! ### slices -/

variable {ε : Type}

/-- `s.get(..n)` / `s.get_mut(..n)` -/
def getTo (s : Bytes) (n : Nat) : R Unit Bytes :=
  if n ≤ s.length then .ok (s.take n) else .err ()

/-- `s.get(a..b)` / `s.get_mut(a..b)` (also `None` when `a > b`) -/
def getRange (s : Bytes) (a b : Nat) : R Unit Bytes :=
  if a ≤ b ∧ b ≤ s.length then .ok ((s.take b).drop a) else .err ()

/-- `s.get(i)` -/
def getAt (s : Bytes) (i : Nat) : R Unit Byte :=
  match s[i]? with
  | some b => .ok b
  | none => .err ()

/-- `&s[n..]` -/
def idxFrom (s : Bytes) (n : Nat) : R ε Bytes :=
  if n ≤ s.length then .ok (s.drop n) else .panic

/-- `&s[..n]` -/
def idxTo (s : Bytes) (n : Nat) : R ε Bytes :=
  if n ≤ s.length then .ok (s.take n) else .panic

/-- `&s[a..b]` -/
def idxRange (s : Bytes) (a b : Nat) : R ε Bytes :=
  if a ≤ b ∧ b ≤ s.length then .ok ((s.take b).drop a) else .panic

/-- `s[i]` -/
def idxAt (s : Bytes) (i : Nat) : R ε Byte :=
  match s[i]? with
  | some b => .ok b
  | none => .panic

/-- `s.split_at(n)` / `s.split_at_mut(n)` -/
def splitAtP (s : Bytes) (n : Nat) : R ε (Bytes × Bytes) :=
  if n ≤ s.length then .ok (s.take n, s.drop n) else .panic

/-- `s.split_first()` / `split_first_mut()` -/
def splitFirst (s : Bytes) : R Unit (Byte × Bytes) :=
  match s with
  | [] => .err ()
  | a :: t => .ok (a, t)

/-- `usize` subtraction -/
def subP (a b : Nat) : R ε Nat := if b ≤ a then .ok (a - b) else .panic

/-! ### big-endian integers -/

/-- `u32::to_be_bytes` -/
def u32ToBe (v : UInt32) : Bytes :=
  [ (v >>> 24).toUInt8, (v >>> 16).toUInt8, (v >>> 8).toUInt8, v.toUInt8 ]

/-- `u32::from_be_bytes(s.try_into().unwrap())` for a slice `s` -/
def u32FromBe (s : Bytes) : R ε UInt32 :=
  match s with
  | [a, b, c, d] =>
    .ok ((a.toUInt32 <<< 24) ||| (b.toUInt32 <<< 16) ||| (c.toUInt32 <<< 8) ||| d.toUInt32)
  | _ => .panic

/-- `u32::try_from(n).unwrap()` for `n : usize` -/
def u32TryFrom (n : Nat) : R ε UInt32 :=
  if n < 2 ^ 32 then .ok (UInt32.ofNat n) else .panic

/-- `u64::to_be_bytes` -/
def u64ToBe (v : UInt64) : Bytes :=
  [ (v >>> 56).toUInt8, (v >>> 48).toUInt8, (v >>> 40).toUInt8, (v >>> 32).toUInt8,
    (v >>> 24).toUInt8, (v >>> 16).toUInt8, (v >>> 8).toUInt8, v.toUInt8 ]

end Nora
