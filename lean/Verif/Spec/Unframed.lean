import Verif.Model.PacketIo
import Verif.Spec.Packet

namespace Nora.Spec

/-- A stream starts with something that is not accepted as a packet by a reader with a buffer of `N` bytes;
with the reason and what is left of the stream. -/
inductive Unframed (bs : BlockSize) (withLength : Bool) (N : Nat) : Bytes → PacketParseError → Bytes → Prop
  /-- it ends in the length field -/
  | short {w} : w.length < 4 → Unframed bs withLength N w .io []
  /-- the announced length is more than the buffer; only the length is read -/
  | large {m rest} : m < 4294967296 → N < m → Unframed bs withLength N (u32 m ++ rest) (.tooLarge m) rest
  /-- the announced length is too small for any packet -/
  | small {m rest} : m < 8 → m ≤ N → Unframed bs withLength N (u32 m ++ rest) (.tooSmall m) rest
  /-- it ends before the packet does -/
  | ends {m rest} : 8 ≤ m → m < 4294967296 → 4 + m ≤ N → rest.length < m →
    Unframed bs withLength N (u32 m ++ rest) .io []
  /-- the length is not a multiple of the block size -/
  | alignment {body rest} : 8 ≤ body.length → body.length < 4294967296 → 4 + body.length ≤ N →
    ¬ Aligned bs withLength body.length →
    Unframed bs withLength N (u32 body.length ++ (body ++ rest)) (.wrapRaw .badAlignment) rest
  /-- more padding than there is room for -/
  | padding {x r rest} : 8 ≤ (x :: r).length → (x :: r).length < 4294967296 → 4 + (x :: r).length ≤ N →
    Aligned bs withLength (x :: r).length → (x :: r).length ≤ x.toNat →
    Unframed bs withLength N (u32 (x :: r).length ++ (x :: r ++ rest)) (.wrapRaw .paddingTooLarge) rest

end Nora.Spec
