import Verif.Model.Utf8
/-
Model of nora_ssh_core/src/data.rs.
-/
namespace Nora
open R

/-! ### AsciiStr (data.rs:5-39) -/

/-- `AsciiStr::try_from(&[u8])`, data.rs:12-16. The str is represented by its bytes. -/
def AsciiStr.tryFrom (s : Bytes) : R Unit Bytes :=
  if Utf8.isAscii s then (Utf8.fromUtf8 s).unwrap else .err ()

/-! ### NameList (data.rs:42-117) -/

/-- `InvalidNameList`, data.rs:96-99 -/
inductive InvalidNameList where
  | emptyName | notAscii
  deriving DecidableEq, Repr

/-- `NameList(&str)`, data.rs:44 -/
structure NameList where
  str : Bytes
  deriving DecidableEq, Repr

/-- `list.windows(2).any(|c| c == b",,")`, data.rs:59 -/
def anyDoubleComma : Bytes → Bool
  | a :: b :: t => (a == 44 && b == 44) || anyDoubleComma (b :: t)
  | _ => false

/-- `NameList::try_from(&[u8])`, data.rs:56-66 -/
def NameList.tryFrom (list : Bytes) : R InvalidNameList NameList :=
  if !Utf8.isAscii list then .err .notAscii
  else if anyDoubleComma list then .err .emptyName
  else if list.head? == some 44 || list.getLast? == some 44 then .err .emptyName
  else (Utf8.fromUtf8 list).unwrap.map NameList.mk

/-- `NameListIter::next`, data.rs:106-116: returns the item and the remaining iterator state -/
def NameListIter.next (st : Bytes) : R Unit (Option (Bytes × Bytes)) :=
  if st.isEmpty then .ok none
  else match st.findIdx? (· == 44) with
    | some i => do
      let rest ← idxFrom st (i + 1)
      let item ← idxTo st i
      .ok (some (item, rest))
    | none => .ok (some (st, []))

/-- running the iterator to exhaustion: the `for`/`any` loops over `NameList::iter`,
data.rs:48-50, 106-116. `fuel` bounds the number of `next` calls. -/
def NameListIter.collect : Nat → Bytes → R Unit (List Bytes)
  | 0, _ => .panic
  | fuel + 1, st => do
    match ← NameListIter.next st with
    | none => .ok []
    | some (item, rest) => do
      let l ← NameListIter.collect fuel rest
      .ok (item :: l)

/-- `list.iter()` run to the end. Every `next` that yields an item consumes at least one byte,
so `len + 1` calls are enough (`Lemmas.NameList` proves it never runs out). -/
def NameList.iter (l : NameList) : R Unit (List Bytes) :=
  NameListIter.collect (l.str.length + 1) l.str

/-! ### readers -/

/-- `split`, data.rs:119-121 -/
def split (data : Bytes) (i : Nat) : R Unit (Bytes × Bytes) :=
  if data.length ≥ i then splitAtP data i else .err ()

/-- `parse_string`, data.rs:162-166 -/
def parseString (s : Bytes) : R Unit (Bytes × Bytes) := do
  let h ← getTo s 4
  let len ← u32FromBe h
  let i := 4 + len.toNat
  let v ← getRange s 4 i
  let rest ← idxFrom s i
  .ok (v, rest)

/-- `name_list`, data.rs:123-125 -/
def nameList (data : Bytes) : R Unit (R InvalidNameList NameList × Bytes) := do
  let (list, data) ← parseString data
  .ok (NameList.tryFrom list, data)

/-- `parse_uint32`, data.rs:168-170 -/
def parseUint32 (buf : Bytes) : R Unit (UInt32 × Bytes) :=
  if buf.length ≥ 4 then do
    let h ← idxTo buf 4
    let v ← u32FromBe h
    let rest ← idxFrom buf 4
    .ok (v, rest)
  else .err ()

/-- `parse_bool`, data.rs:172-174 -/
def parseBool (buf : Bytes) : R Unit (Bool × Bytes) :=
  if buf.length ≥ 1 then do
    let b ← idxAt buf 0
    let rest ← idxFrom buf 1
    .ok (b != 0, rest)
  else .err ()

/-! ### writers

A writer takes the old content of `buf` and returns `(count, written, rest)`: the `usize` it
returns, the new content of the part it wrote and the remaining slice it returns. -/

/-- `make_string_len`, data.rs:127-129 -/
def makeStringLen (s : Bytes) : R Unit Bytes := do
  let l ← u32TryFrom s.length
  .ok (u32ToBe l)

/-- `make_string2`, data.rs:131-136 -/
def makeString2 (buf : Bytes) (s : Bytes) : R Unit (Nat × Bytes × Bytes) := do
  let _ ← getTo buf 4
  let l ← u32TryFrom s.length
  let _ ← getRange buf 4 (4 + s.length)
  let rest ← idxFrom buf (4 + s.length)
  .ok (4 + s.length, u32ToBe l ++ s, rest)

/-- `make_bool`, data.rs:138-142 -/
def makeBool (buf : Bytes) (value : Bool) : R Unit (Nat × Bytes × Bytes) := do
  let (_, buf) ← splitFirst buf
  .ok (1, [if value then 1 else 0], buf)

/-- `make_uint32`, data.rs:144-149 -/
def makeUint32 (buf : Bytes) (value : UInt32) : R Unit (Nat × Bytes × Bytes) :=
  if buf.length ≥ 4 then do
    let rest ← idxFrom buf 4
    .ok (4, u32ToBe value, rest)
  else .err ()

/-- `make_raw`, data.rs:151-157 -/
def makeRaw (buf : Bytes) (data : Bytes) : R Unit (Nat × Bytes × Bytes) :=
  if data.length ≤ buf.length then do
    let (cpy, buf) ← splitAtP buf data.length
    .ok (cpy.length, data, buf)
  else .err ()

/-- the `while` loop of `make_pos_mpint`, data.rs:178-180 -/
def stripZeros : Bytes → Bytes
  | 0 :: t => stripZeros t
  | s => s

/-- the zero put in front by `make_pos_mpint`, data.rs:182-187: `i` and the buffer after
`*buf.get_mut(4)? = 0` -/
def mpintPad (buf : Bytes) (s : Bytes) : R Unit (Nat × Bytes) :=
  match s with
  | c :: _ =>
    if c &&& 0x80 != 0 then do
      let _ ← getAt buf 4
      .ok (1, buf.set 4 0)
    else .ok (0, buf)
  | [] => .ok (0, buf)

/-- `make_pos_mpint`, data.rs:176-192: returns the count and the new content of the whole buffer -/
def makePosMpint (buf : Bytes) (s : Bytes) : R Unit (Nat × Bytes) := do
  let s := stripZeros s
  let (i, buf) ← mpintPad buf s
  -- `buf.get_mut(..4)?.copy_from_slice(..)`
  let _ ← getTo buf 4
  let l ← u32TryFrom (i + s.length)
  let buf := u32ToBe l ++ buf.drop 4
  -- `buf.get_mut(4 + i..4 + i + s.len())?.copy_from_slice(s)`
  let _ ← getRange buf (4 + i) (4 + i + s.length)
  let buf := buf.take (4 + i) ++ s ++ buf.drop (4 + i + s.length)
  .ok (4 + i + s.length, buf)

/-- `make_pos_mpint2`, data.rs:194-196 -/
def makePosMpint2 (buf : Bytes) (s : Bytes) : R Unit (Nat × Bytes × Bytes) := do
  let (i, buf) ← makePosMpint buf s
  let rest ← idxFrom buf i
  .ok (i, buf.take i, rest)

end Nora
