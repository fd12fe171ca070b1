import Verif.Spec.Conn
/-
Specification of the encrypted part of a connection: what is written and what is read. Only data types of
the model are used.
-/
namespace Nora.Spec

/-- The payloads `ps`, one after the other, are written as `w`: each is put into a packet with the least
padding, which is taken from the random numbers `r`, and sealed with its number; a packet has at most 35000
bytes; numbers are consecutive, starting with `n`, and have 64 bits. A packet may have been written only in part, if `cut` holds; the last
one also if `fail` holds. The random numbers left are `r'`. -/
inductive Written (K : Crypto) (k : Keys) (cut fail : Prop) :
    Nat → Tape → List Bytes → Bytes → Tape → Prop
  | nil {n r} : Written K k cut fail n r [] [] r
  | cons {n r p j raw m ps w r'} : LeastPad .b8 false p.length j →
    PacketOf .b8 false p (r.bytes j) raw → raw.length + 16 ≤ 35000 → n + 1 < 2 ^ 64 →
    (m < (sealed K k n raw).length → cut ∨ fail ∧ ps = []) →
    Written K k cut fail (n + 1) (r.skip j) ps w r' → Written K k cut fail n r (p :: ps) ((sealed K k n raw).take m ++ w) r'

/-- The payloads `ps` are read from `u`: each is in a packet of at most 35000 bytes, sealed with its
number; numbers are consecutive, starting with `n`, and have 64 bits. There are other bytes before a packet
only if `cut` holds. -/
inductive Taken (K : Crypto) (k : Keys) (cut : Prop) : Nat → List Bytes → Bytes → Prop
  | nil {n} : Taken K k cut n [] []
  | cons {n p gap raw ps u} : (gap ≠ [] → cut) → Framed .b8 false p raw → raw.length + 16 ≤ 35000 →
    n + 1 < 2 ^ 64 → Taken K k cut (n + 1) ps u → Taken K k cut n (p :: ps) (gap ++ sealed K k n raw ++ u)

end Nora.Spec
