import Verif.Model.Crypto
/-
Model of nora_ssh_core/src/cipher/chacha20poly1305.rs.
-/
namespace Nora
open R

variable {ε : Type}

/-- a use of keystream: `len` bytes from byte position `pos` -/
structure KsUse where
  key : Bytes
  nonce : Bytes
  pos : Nat
  len : Nat
  deriving DecidableEq, Repr

/-- `ChaCha20Poly1305`, chacha20poly1305.rs:17-21. `uses` is a ghost field: the keystream this object
has used, oldest first. -/
structure ChaCha where
  keyLength : Bytes
  keyData : Bytes
  counter : UInt64
  uses : List KsUse
  deriving DecidableEq, Repr

/-- xor `data` with the keystream from byte position `pos` on -/
def xorKs (ks : Nat → Byte) (pos : Nat) : Bytes → Bytes
  | [] => []
  | b :: t => (b ^^^ ks pos) :: xorKs ks (pos + 1) t

/-- `TAG_SIZE`, chacha20poly1305.rs:15; `tag_size`, :93-95 -/
def tagSize : Nat := 16

namespace ChaCha
variable (K : Crypto)

/-- `block_size`, chacha20poly1305.rs:97-99 -/
def blockSize (_ : ChaCha) : BlockSize := .b8

/-- `nonce`, chacha20poly1305.rs:40-42 -/
def nonce (c : ChaCha) : Bytes := u64ToBe c.counter

/-- `apply_keystream` of a fresh cipher with `key` and this packet's nonce, positioned at byte
`pos` -/
def apply (c : ChaCha) (key : Bytes) (pos : Nat) (data : Bytes) : Bytes × ChaCha :=
  (xorKs (K.stream key c.nonce) pos data,
   { c with uses := c.uses ++ [⟨key, c.nonce, pos, data.length⟩] })

/-- `compute_tag`, chacha20poly1305.rs:44-50; the MAC key is 32 zero bytes xored with keystream -/
def computeTag (c : ChaCha) (data : Bytes) : Bytes × ChaCha :=
  let (macKey, c) := c.apply K c.keyData 0 (List.replicate 32 0)
  (K.poly macKey data, c)

/-- `authenticate`, chacha20poly1305.rs:52-55 -/
def authenticate (c : ChaCha) (data : Bytes) : R ε (Bool × ChaCha) := do
  let n ← subP data.length tagSize
  let (data, tag) ← splitAtP data n
  let (t, c) := c.computeTag K data
  .ok (decide (t = tag), c)

/-- `apply_data`, chacha20poly1305.rs:57-61; `set_block_pos(1)` is byte position 64 -/
def applyData (c : ChaCha) (data : Bytes) : Bytes × ChaCha := c.apply K c.keyData 64 data

/-- `self.counter += 1`: overflow panics -/
def bump (c : ChaCha) : R ε ChaCha :=
  if c.counter.toNat + 1 < 2 ^ 64 then .ok { c with counter := c.counter + 1 } else .panic

/-- `decrypt_length`, chacha20poly1305.rs:65-68 -/
def decryptLength (c : ChaCha) (len : Bytes) : Bytes × ChaCha := c.apply K c.keyLength 0 len

/-- `decrypt_data`, chacha20poly1305.rs:70-81. `ok` holds the new content of `data`; on `Err` the data
are as before. -/
def decryptData (c : ChaCha) (data : Bytes) : R ChaCha (Bytes × ChaCha) := do
  let (good, c) ← c.authenticate K data
  if good then do
    let l ← subP data.length tagSize
    let d ← idxRange data 4 l
    let (d, c) := c.applyData K d
    let c ← c.bump
    .ok (data.take 4 ++ d ++ data.drop l, c)
  else .err c

/-- `encrypt`, chacha20poly1305.rs:83-91 -/
def encrypt (c : ChaCha) (data : Bytes) : R ε (Bytes × ChaCha) := do
  let n ← subP data.length tagSize
  let (data, _tag) ← splitAtP data n
  let (len, payload) ← splitAtP data 4
  let (len, c) := c.apply K c.keyLength 0 len
  let (payload, c) := c.applyData K payload
  let (tag, c) := c.computeTag K (len ++ payload)
  let c ← c.bump
  .ok (len ++ payload ++ tag, c)

end ChaCha

end Nora
