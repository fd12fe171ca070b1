import Verif.Model.Cipher
import Verif.Spec.Packet
/-
Specification of chacha20-poly1305@openssh.com (OpenSSH PROTOCOL.chacha20poly1305). Only data types
of the model are used.
-/
namespace Nora.Spec

/-- 64-bit big-endian number -/
def u64 (n : Nat) : Bytes :=
  [UInt8.ofNat (n / 2 ^ 56), UInt8.ofNat (n / 2 ^ 48), UInt8.ofNat (n / 2 ^ 40),
   UInt8.ofNat (n / 2 ^ 32), UInt8.ofNat (n / 2 ^ 24), UInt8.ofNat (n / 2 ^ 16),
   UInt8.ofNat (n / 2 ^ 8), UInt8.ofNat n]

/-- data xored with a keystream from byte `pos` on -/
def xorStream (ks : Nat → Byte) (pos : Nat) (data : Bytes) : Bytes :=
  data.mapIdx fun i b => b ^^^ ks (pos + i)

/-- the two keys of a direction -/
structure Keys where
  length : Bytes
  data : Bytes
  deriving DecidableEq, Repr

/-- the keys of a cipher object -/
def keysOf (c : ChaCha) : Keys := ⟨c.keyLength, c.keyData⟩

/-- the MAC key of packet number `n`: the first 32 bytes of keystream of the data key -/
def macKey (K : Crypto) (k : Keys) (n : Nat) : Bytes := (List.range 32).map (K.stream k.data (u64 n))

def mac (K : Crypto) (k : Keys) (n : Nat) (covered : Bytes) : Bytes := K.poly (macKey K k n) covered

/-- the encrypted length field -/
def sealLength (K : Crypto) (k : Keys) (n : Nat) (len : Bytes) : Bytes :=
  xorStream (K.stream k.length (u64 n)) 0 len

/-- the encrypted rest of the packet -/
def sealBody (K : Crypto) (k : Keys) (n : Nat) (body : Bytes) : Bytes :=
  xorStream (K.stream k.data (u64 n)) 64 body

/-- packet number `n` as sent: `raw` is the length field (4 bytes) and the rest -/
def sealed (K : Crypto) (k : Keys) (n : Nat) (raw : Bytes) : Bytes :=
  sealLength K k n (raw.take 4) ++ sealBody K k n (raw.drop 4) ++
    mac K k n (sealLength K k n (raw.take 4) ++ sealBody K k n (raw.drop 4))

/-- a use of keystream touches 64-byte block `b` of `(key, nonce)` -/
def Touches (u : KsUse) (key nonce : Bytes) (b : Nat) : Prop :=
  u.key = key ∧ u.nonce = nonce ∧ u.pos < 64 * (b + 1) ∧ 64 * b < u.pos + u.len

end Nora.Spec
