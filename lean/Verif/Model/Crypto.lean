import Verif.Model.Io
/-
The cryptographic primitives: external crates (`chacha20`, `poly1305`, `sha2`, `x25519_dalek`,
`ecdsa`/`p256`), which are not part of the repo. They are arbitrary functions with outputs of the
right length; nothing else is assumed here. What a property needs beyond that (unforgeable MACs,
commuting Diffie-Hellman) is an explicit hypothesis of its theorem.
-/
namespace Nora

structure Crypto where
  /-- `ChaCha20Legacy`: byte `i` of the keystream of a key and a nonce. Block `b` is the bytes
  `64 b … 64 b + 63`. -/
  stream : (key nonce : Bytes) → Nat → Byte
  /-- `Poly1305::compute_unpadded` -/
  poly : (key msg : Bytes) → Bytes
  poly_length : ∀ k m, (poly k m).length = 16
  /-- SHA-256 -/
  hash : Bytes → Bytes
  hash_length : ∀ m, (hash m).length = 32
  /-- `x25519_dalek::PublicKey::from(&EphemeralSecret)` for the 32 random bytes of the secret -/
  dhPublic : (secret : Bytes) → Bytes
  dhPublic_length : ∀ s, (dhPublic s).length = 32
  /-- `EphemeralSecret::diffie_hellman` -/
  dhShared : (secret peer : Bytes) → Bytes
  dhShared_length : ∀ s p, (dhShared s p).length = 32
  /-- the host's public key as an uncompressed P-256 point -/
  hostPoint : Bytes
  hostPoint_length : hostPoint.length = 65
  /-- `SigningKey::sign`: `(r, s)` for a message -/
  sign : Bytes → Bytes × Bytes
  sign_length : ∀ m, (sign m).1.length = 32 ∧ (sign m).2.length = 32

/-- an instance, to show that the assumptions on lengths can be met -/
def Crypto.trivial : Crypto where
  stream := fun k n i => (k.getD (i % 32) 0) + (n.getD (i % 8) 0) + UInt8.ofNat i
  poly := fun k m => List.replicate 16 ((k ++ m).foldl (· + ·) 0)
  poly_length := by simp
  hash := fun m => List.replicate 32 (m.foldl (· + ·) 0)
  hash_length := by simp
  dhPublic := fun s => List.replicate 32 (s.getD 0 0)
  dhPublic_length := by simp
  dhShared := fun s p => List.replicate 32 (s.getD 0 0 + p.getD 0 0)
  dhShared_length := by simp
  hostPoint := List.replicate 65 4
  hostPoint_length := by simp
  sign := fun m => (List.replicate 32 (m.foldl (· + ·) 1), List.replicate 32 (m.foldl (· + ·) 2))
  sign_length := by simp

end Nora
