import Verif.Model.Kex
import Verif.Spec.Cipher
/-
Specification of the key exchange: RFC 5656 section 4 and RFC 8731 section 3.1 (exchange hash),
RFC 4253 section 7.2 (keys) and section 7.1 (negotiation). Only data types of the model are used.
-/
namespace Nora.Spec

/-- the items that go into the exchange hash -/
structure Transcript where
  clientId : Bytes
  serverId : Bytes
  clientKexInit : Bytes
  serverKexInit : Bytes
  hostKey : Bytes
  clientEphemeral : Bytes
  serverEphemeral : Bytes
  /-- the shared secret, a big-endian number -/
  secret : Bytes
  deriving DecidableEq, Repr

/-- `e` is the encoding of `t` that is hashed -/
def TranscriptBytes (t : Transcript) (e : Bytes) : Prop :=
  ∃ k, MpintBody (beVal t.secret) k ∧
    e = str t.clientId ++ str t.serverId ++ str t.clientKexInit ++ str t.serverKexInit ++
      str t.hostKey ++ str t.clientEphemeral ++ str t.serverEphemeral ++ str k

/-- all items are shorter than 2^32 bytes -/
def TranscriptFits (t : Transcript) : Prop :=
  Fits t.clientId ∧ Fits t.serverId ∧ Fits t.clientKexInit ∧ Fits t.serverKexInit ∧
  Fits t.hostKey ∧ Fits t.clientEphemeral ∧ Fits t.serverEphemeral ∧ t.secret.length + 1 < 2 ^ 32

/-- block `i` (from 0) of the key with letter `x`, from the encoded secret `k`, the exchange hash and
the session identifier -/
def keyBlock (hash : Bytes → Bytes) (k h : Bytes) (x : Byte) (sid : Bytes) : Nat → Bytes
  | 0 => hash (k ++ h ++ [x] ++ sid)
  | i + 1 => hash (k ++ h ++ keyPrefix i)
where
  /-- blocks 0 to `i`, concatenated -/
  keyPrefix : Nat → Bytes
  | 0 => keyBlock hash k h x sid 0
  | i + 1 => keyPrefix i ++ keyBlock hash k h x sid (i + 1)

/-- what a key is for -/
inductive Purpose where
  | iv | encryption | integrity
  deriving DecidableEq, Repr

/-- the letters of RFC 4253 section 7.2 -/
def keyLetter : Purpose → Direction → Byte
  | .iv, .clientToServer => 65
  | .iv, .serverToClient => 66
  | .encryption, .clientToServer => 67
  | .encryption, .serverToClient => 68
  | .integrity, .clientToServer => 69
  | .integrity, .serverToClient => 70

/-- RFC 4253 section 7.1: the first name of the client's list that is in the server's list -/
def negotiate (client server : List Bytes) : Option Bytes := client.find? (fun n => decide (n ∈ server))

end Nora.Spec
