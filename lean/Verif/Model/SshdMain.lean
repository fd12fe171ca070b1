import Verif.Model.Server
import Verif.Model.Sshd
import Verif.Model.Identifier
/-
Model of the example server, nora_sshd/src/main.rs: what its `main` does before `Server::start`.
-/
namespace Nora
open R

/-- What `main` uses of `rand` and `ecdsa`: `StdRng::seed_from_u64`, a stream of bytes; `SigningKey::random`;
and the primitives with such a key as that of the host. -/
structure KeyGen where
  Secret : Type
  seed : UInt64 → Nat → Byte
  random : (Nat → Byte) → Secret
  crypto : Secret → Crypto

namespace Sshd

/-- The start of `main`, nora_sshd/src/main.rs:18-28: what `Server::start` is called with. `entropy` is the
randomness of the operating system, `bound` is whether the port can be bound (main.rs:23). -/
def main (G : KeyGen) (E : Ed25519) (number : Bytes → Nat) (S : Sys) (_entropy : Nat → Byte)
    (bound : Bool) : R Unit Server.Config := do
  let rng := G.seed 0
  let secret := G.random rng
  let _ ← if bound then R.ok () else R.panic
  let ident ← (Ident.new (b! "SSH-2.0-nora_ssh example")).unwrap
  .ok { K := G.crypto secret, H := handlers E number, C := connHandlers S, ident }

end Sshd

end Nora
