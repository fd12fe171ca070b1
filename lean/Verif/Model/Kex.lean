import Verif.Model.Cipher
import Verif.Model.Message
/-
Model of the digest part of nora_ssh_core/src/message/key_exchange/ecdh.rs, of
nora_ssh_core/src/key_exchange.rs and of `ChaCha20Poly1305::from_key_material`.

A `Digest` under construction is the list of bytes it was fed; `finalize` is `Crypto.hash` of them.
The types `PostClientId` … `PostServerEphermalKey`, which only fix the order of the updates, are not
distinguished; the order is the one in which `Host.handleNewClient` calls the functions.
-/
namespace Nora
open R

variable {ε : Type}

namespace KexDigest

/-- `f`, ecdh.rs:180-182 -/
def f (h s : Bytes) : R ε Bytes := do
  let l ← (makeStringLen s).unwrap
  .ok (h ++ l ++ s)

/-- `g`, ecdh.rs:183-187 -/
def g (h s : Bytes) : R ε Bytes := do
  let (l, buf) ← (makePosMpint (List.replicate 128 0) s).unwrap
  let b ← idxTo buf l
  .ok (h ++ b)

/-- `KeyExchangeDigest::update`, ecdh.rs:189-193 -/
def clientId (h id : Bytes) : R ε Bytes := f h id

/-- `PostClientId::update`, ecdh.rs:194-198 -/
def serverId (h id : Bytes) : R ε Bytes := f h id

/-- `PostServerId::update`, ecdh.rs:199-203 -/
def clientKexInit (h payload : Bytes) : R ε Bytes := f h payload

/-- `PostClientKexInit::update`, ecdh.rs:204-208 -/
def serverKexInit (h payload : Bytes) : R ε Bytes := f h payload

/-- `PostServerKexInit::update`, ecdh.rs:209-214. Also returns the new content of `buf`. -/
def hostKey (h buf : Bytes) (key : Kex.Key) : R ε (Bytes × Bytes) := do
  let (l, w, rest) ← (key.serialize buf).unwrap
  let buf := w ++ rest
  let b ← idxTo buf l
  let h ← f h b
  .ok (h, buf)

/-- `PostPublicHostKey::update`, ecdh.rs:215-219 -/
def clientEphermalKey (h key : Bytes) : R ε Bytes := f h key

/-- `PostClientEphermalKey::update`, ecdh.rs:220-224 -/
def serverEphermalKey (h key : Bytes) : R ε Bytes := f h key

/-- `PostServerEphermalKey::update`, ecdh.rs:225-229 -/
def secret (K : Crypto) (h s : Bytes) : R ε Bytes := do
  let h ← g h s
  .ok (K.hash h)

end KexDigest

/-- `Direction`, key_exchange.rs:8-12 -/
inductive Direction where
  | clientToServer | serverToClient
  deriving DecidableEq, Repr

/-- `KeyMaterial`, key_exchange.rs:14-19 -/
structure KeyMaterial where
  secret : Bytes
  secretLen : Nat
  hash : Bytes
  deriving DecidableEq, Repr

namespace KeyMaterial
variable (K : Crypto)

/-- `KeyMaterial::new`, key_exchange.rs:22-26 -/
def new (secret hash : Bytes) : R ε KeyMaterial := do
  let (secretLen, buf) ← (makePosMpint (List.replicate (4 + 1 + 32) 0) secret).unwrap
  .ok { secret := buf, secretLen, hash }

/-- `digest_k1`, key_exchange.rs:47-58 -/
def digestK1 (m : KeyMaterial) (x : Byte) : R ε Bytes := do
  let sessionId := m.hash
  let k ← idxTo m.secret m.secretLen
  .ok (K.hash (k ++ m.hash ++ [x] ++ sessionId))

/-- `digest_kn`, key_exchange.rs:60-69 -/
def digestKn (m : KeyMaterial) (keys : List Bytes) : R ε Bytes := do
  let k ← idxTo m.secret m.secretLen
  .ok (K.hash (keys.foldl (fun d k => d ++ k) (k ++ m.hash)))

/-- the `for` loop of `gen`, key_exchange.rs:73-76: `todo` more blocks after the blocks `done` -/
def genLoop (m : KeyMaterial) : (todo : Nat) → (done : List Bytes) → R ε (List Bytes)
  | 0, done => .ok done
  | todo + 1, done => do
    let k ← m.digestKn K done
    genLoop m todo (done ++ [k])

/-- `gen`, key_exchange.rs:71-79, for an `out` of `n` blocks: the blocks written. Its result is the
same memory seen as one slice. `out[0]` panics for `n = 0`. -/
def gen (m : KeyMaterial) (x : Byte) (n : Nat) : R ε (List Bytes) :=
  match n with
  | 0 => .panic
  | n + 1 => do
    let k1 ← m.digestK1 K x
    m.genLoop K n [k1]

/-- the letter of the macro `gen!`, key_exchange.rs:32-44 -/
def letter (c : Byte) : Direction → Byte
  | .clientToServer => c
  | .serverToClient => c + 1

/-- `initial_iv`, key_exchange.rs:81 -/
def initialIv (m : KeyMaterial) (dir : Direction) (n : Nat) : R ε (List Bytes) :=
  m.gen K (letter 65 dir) n

/-- `encryption_key`, key_exchange.rs:82 -/
def encryptionKey (m : KeyMaterial) (dir : Direction) (n : Nat) : R ε (List Bytes) :=
  m.gen K (letter 67 dir) n

/-- `integrity_key`, key_exchange.rs:83 -/
def integrityKey (m : KeyMaterial) (dir : Direction) (n : Nat) : R ε (List Bytes) :=
  m.gen K (letter 69 dir) n

end KeyMaterial

/-- `key[i]` for an array of blocks -/
def blockAt (l : List Bytes) (i : Nat) : R ε Bytes :=
  match l[i]? with
  | some b => .ok b
  | none => .panic

/-- `ChaCha20Poly1305::from_key_material`, chacha20poly1305.rs:26-38 -/
def ChaCha.fromKeyMaterial (K : Crypto) (m : KeyMaterial) (dir : Direction) (counter : UInt64) :
    R ε ChaCha := do
  let key ← m.encryptionKey K dir 2
  let keyLength ← blockAt key 1
  let keyData ← blockAt key 0
  .ok { keyLength, keyData, counter, uses := [] }

end Nora
