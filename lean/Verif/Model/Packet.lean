import Verif.Model.Data
/-
Model of nora_ssh_core/src/packet.rs.
-/
namespace Nora
open R

variable {ε : Type}

/-! ### random bytes -/

/-- A `CryptoRng`: the bytes it will produce. Arbitrary. -/
abbrev Tape := Nat → Byte

/-- the next `n` bytes -/
def Tape.bytes (t : Tape) (n : Nat) : Bytes := (List.range n).map t

/-- the generator after producing `n` bytes -/
def Tape.skip (t : Tape) (n : Nat) : Tape := fun i => t (i + n)

/-! ### BlockSize (packet.rs:111-128) -/

/-- `BlockSize`, packet.rs:111-117 -/
inductive BlockSize where
  | b8 | b16 | b32 | b64
  deriving DecidableEq, Repr

/-- `BlockSize::to_usize`, packet.rs:120-127 -/
def BlockSize.toUsize : BlockSize → Nat
  | .b8 => 8
  | .b16 => 16
  | .b32 => 32
  | .b64 => 64

/-- `u8::try_from(n).unwrap()` for `n : usize` (packet.rs:105) -/
def u8TryFrom (n : Nat) : R ε Byte :=
  if n < 256 then .ok (UInt8.ofNat n) else .panic

/-! ### Packet -/

/-- `Packet`, packet.rs:3-5: a view of a buffer that starts with a packet -/
structure Packet where
  data : Bytes
  deriving DecidableEq, Repr

namespace Packet

/-- `packet_len_bytes` / `packet_len_bytes_mut`, packet.rs:14-20 -/
def packetLenBytes (p : Packet) : R ε Bytes := idxTo p.data 4

/-- `packet_len`, packet.rs:8-12 -/
def packetLen (p : Packet) : R ε Nat := do
  let b ← p.packetLenBytes
  let v ← u32FromBe b
  .ok v.toNat

/-- `packet_bytes` / `packet_bytes_mut`, packet.rs:22-29 -/
def packetBytes (p : Packet) : R ε Bytes := do
  let l ← p.packetLen
  idxRange p.data 4 (4 + l)

/-- `padding_len`, packet.rs:31-33 -/
def paddingLen (p : Packet) : R ε Nat := do
  let b ← idxAt p.data 4
  .ok b.toNat

/-- `payload_len`, packet.rs:35-37 -/
def payloadLen (p : Packet) : R ε Nat := do
  let l ← p.packetLen
  let k ← p.paddingLen
  let a ← subP l k
  subP a 1

/-- `payload` / `payload_mut` / `into_payload`, packet.rs:39-51 -/
def payload (p : Packet) : R ε Bytes := do
  let l ← p.payloadLen
  idxRange p.data 5 (5 + l)

/-- `as_raw` / `as_raw_mut`, packet.rs:53-60 -/
def asRaw (p : Packet) : R ε Bytes := do
  let l ← p.packetLen
  idxTo p.data (4 + l)

/-- `into_raw`, packet.rs:62-65 -/
def intoRaw (p : Packet) (withExtra : Nat) : R ε Bytes := do
  let l ← p.packetLen
  idxTo p.data (4 + l + withExtra)

end Packet

/-- `WrapRawError`, packet.rs:130-134 -/
inductive WrapRawError where
  | badAlignment | paddingTooLarge
  deriving DecidableEq, Repr

/-- `Packet::wrap_raw`, packet.rs:67-81 -/
def Packet.wrapRaw (data : Bytes) (padWithPacketLength : Bool) (bs : BlockSize) :
    R WrapRawError Packet := do
  let slf : Packet := ⟨data⟩
  let offt := if padWithPacketLength then 4 else 0
  let l ← slf.packetLen
  if (l + offt) % bs.toUsize ≠ 0 then .err .badAlignment
  else do
    let k ← slf.paddingLen
    if k ≥ l then .err .paddingTooLarge else .ok slf

/-- `(x + block_size - 1) & !(block_size - 1)`, packet.rs:97; `a & !b` is `a` without the bits it has
in common with `b`, which on numbers is `a - (a & b)` -/
def roundUp (x bs : Nat) : Nat := (x + bs - 1) - ((x + bs - 1) &&& (bs - 1))

/-- packet.rs:97-103: `(padding_len, packet_len)` for a payload length -/
def Packet.lengths (bs : BlockSize) (padWithPacketLength : Bool) (payloadLen : Nat) :
    R ε (Nat × Nat) := do
  let bsz := bs.toUsize
  let offset := if padWithPacketLength then 0 else 4
  let totalLen := roundUp (4 + 1 + payloadLen) bsz + offset
  let packetLen ← subP totalLen 4
  let a ← subP packetLen payloadLen
  let paddingLen ← subP a 1
  if paddingLen < 4 then .ok (paddingLen + bsz, packetLen + bsz) else .ok (paddingLen, packetLen)

/-- `Packet::wrap`, packet.rs:83-108. `makePayload` gets the content of `buf[5..]` and returns the
payload length and the new content; the random generator is the tape of its future bytes, returned
advanced. -/
def Packet.wrap (buf : Bytes) (bs : BlockSize) (padWithPacketLength : Bool)
    (makePayload : Bytes → R ε (Nat × Bytes)) (rng : Tape) : R ε (Packet × Tape) := do
  let (head, tail) ← splitAtP buf 5
  let (payloadLen, tail) ← makePayload tail
  let (paddingLen, packetLen) ← Packet.lengths bs padWithPacketLength payloadLen
  -- `buf[..4].copy_from_slice(..)`
  let l ← u32TryFrom packetLen
  let head := u32ToBe l ++ head.drop 4
  -- `buf[4] = padding_len.try_into().unwrap()`
  let k ← u8TryFrom paddingLen
  let head := head.set 4 k
  let buf := head ++ tail
  -- `rng.fill_bytes(&mut buf[4 + 1 + payload_len..][..padding_len])`
  let rest ← idxFrom buf (4 + 1 + payloadLen)
  let _ ← idxTo rest paddingLen
  let buf := buf.take (4 + 1 + payloadLen) ++ rng.bytes paddingLen ++ rest.drop paddingLen
  .ok (⟨buf⟩, rng.skip paddingLen)

end Nora
