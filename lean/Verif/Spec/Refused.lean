import Verif.Model.Transport
import Verif.Spec.Cipher
import Verif.Spec.Packet

namespace Nora.Spec
open R

/-- A stream starts with something that is not accepted as packet number `n` by a reader with a buffer of
`N` bytes; with the reason and what is left of the stream. -/
inductive Refused (K : Crypto) (k : Keys) (n N : Nat) : Bytes → InError → Bytes → Prop
  /-- it ends in the length field -/
  | short {w} : w.length < 4 → Refused K k n N w .read []
  /-- the packet does not fit the buffer; only the length is read -/
  | large {m rest} : m < 4294967296 → N < 4 + m + 16 →
    Refused K k n N (sealLength K k n (u32 m) ++ rest) (.bufferTooSmall m) rest
  /-- it ends before the packet does -/
  | ends {m rest} : m < 4294967296 → 4 + m + 16 ≤ N → rest.length < m + 16 →
    Refused K k n N (sealLength K k n (u32 m) ++ rest) .read []
  /-- the authentication code is not the one of the packet -/
  | mac {body tag rest} : body.length < 4294967296 → 4 + body.length + 16 ≤ N → tag.length = 16 →
    tag ≠ mac K k n (sealLength K k n (u32 body.length) ++ body) →
    Refused K k n N (sealLength K k n (u32 body.length) ++ (body ++ (tag ++ rest))) .cipher rest
  /-- the length is not a multiple of 8 -/
  | alignment {body rest} : body.length < 4294967296 → 4 + body.length + 16 ≤ N → body.length % 8 ≠ 0 →
    Refused K k n N (sealed K k n (u32 body.length ++ body) ++ rest) (.packet .badAlignment) rest
  /-- a packet without a byte for the amount of padding -/
  | empty {rest} : 4 + 16 ≤ N → Refused K k n N (sealed K k n (u32 0) ++ rest) (.packet .paddingTooLarge) rest
  /-- more padding than there is room for -/
  | padding {x r rest} : (x :: r).length < 4294967296 → 4 + (x :: r).length + 16 ≤ N →
    (x :: r).length % 8 = 0 → (x :: r).length ≤ x.toNat →
    Refused K k n N (sealed K k n (u32 (x :: r).length ++ x :: r) ++ rest) (.packet .paddingTooLarge) rest

end Nora.Spec
