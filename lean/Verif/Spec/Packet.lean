import Verif.Model.Packet
import Verif.Spec.Wire
/-
Specification of the binary packet protocol, RFC 4253 section 6. Only data types of the model are
used.
-/
namespace Nora.Spec

/-- cipher block size in bytes -/
def blockBytes : BlockSize → Nat
  | .b8 => 8 | .b16 => 16 | .b32 => 32 | .b64 => 64

/-- the part of the packet that must be a multiple of the block size: the whole packet, or (for
ciphers that encrypt the length separately) the packet without its length field -/
def Aligned (bs : BlockSize) (withLength : Bool) (packetLength : Nat) : Prop :=
  ((if withLength then 4 else 0) + packetLength) % blockBytes bs = 0

instance (bs : BlockSize) (w : Bool) (n : Nat) : Decidable (Aligned bs w n) :=
  inferInstanceAs (Decidable (_ = _))

/-- `raw` is a legal binary packet holding `payload` and `padding` (without MAC) -/
structure PacketOf (bs : BlockSize) (withLength : Bool) (payload padding raw : Bytes) : Prop where
  bytes : raw = u32 (1 + payload.length + padding.length) ++
    (UInt8.ofNat padding.length :: (payload ++ padding))
  minPad : 4 ≤ padding.length
  maxPad : padding.length ≤ 255
  aligned : Aligned bs withLength (1 + payload.length + padding.length)
  fits : 1 + payload.length + padding.length < 4294967296

/-- `raw` is framed like a packet that holds `payload`, with any amount of padding: what a lenient
reader accepts -/
def Framed (bs : BlockSize) (withLength : Bool) (payload raw : Bytes) : Prop :=
  ∃ padding : Bytes, raw = u32 (1 + payload.length + padding.length) ++
      (UInt8.ofNat padding.length :: (payload ++ padding)) ∧
    padding.length ≤ 255 ∧ Aligned bs withLength (1 + payload.length + padding.length) ∧
    8 ≤ 1 + payload.length + padding.length ∧
    1 + payload.length + padding.length < 4294967296

/-- `k` is the least legal amount of padding for `n` payload bytes -/
def LeastPad (bs : BlockSize) (withLength : Bool) (n k : Nat) : Prop :=
  4 ≤ k ∧ Aligned bs withLength (1 + n + k) ∧
    ∀ j, 4 ≤ j → Aligned bs withLength (1 + n + j) → k ≤ j

end Nora.Spec
