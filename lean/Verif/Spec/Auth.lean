import Verif.Spec.Wire
import Verif.Spec.Packet
import Verif.Spec.Cipher
import Verif.Model.Auth
/-
Specification of the authentication phase: what a connection's log may look like. Of the model only
the data types and the handlers are used.
-/
namespace Nora.Spec
open R

/-- the payload `p` is a legal encoding of `m` -/
def Legal (m : Message) (p : Bytes) : Prop := WF m ∧ Wire m p

/-- the payload is understood as the message: all encodings of messages are, except those of
KEX_ECDH_REPLY, which only a server sends -/
def Reads (p : Bytes) (m : Message) : Prop := isReply m = false ∧ Legal m p

/-- USERAUTH_REQUEST -/
def request (user service : Bytes) (m : Auth.Method) : Message :=
  .userAuth (.request { user, service, method := m })

/-- RFC 4252 section 7: the data to be signed -/
def signData (sid user service algorithm blob : Bytes) : Bytes :=
  str sid ++ 50 :: (str user ++ str service ++ str (b! "publickey") ++ 1 :: (str algorithm ++ str blob))

/-- a public key or signature with the name of its algorithm -/
def tagged (algorithm x : Bytes) : Bytes := str algorithm ++ str x

/-- The payload `p` asks for authentication of `user` for `service` with the credentials `arg`. More
than 1024 bytes of data to be signed are not supported. -/
inductive Attempt (sid p user service : Bytes) : AuthArg → Prop
  | none : Legal (request user service .none) p → Attempt sid p user service .none
  | password {pw} : Legal (request user service (.password pw)) p →
    Attempt sid p user service (.password pw)
  | publicKey {algorithm key signature} :
    Legal (request user service (.publicKeySigned algorithm (tagged algorithm key)
      (tagged algorithm signature))) p →
    (signData sid user service algorithm (tagged algorithm key)).length ≤ 1024 →
    Attempt sid p user service (.publicKey algorithm key signature
      (signData sid user service algorithm (tagged algorithm key)))

/-- The payload `p` asks whether a key would be accepted. -/
def Probe (p user service algorithm key : Bytes) : Prop :=
  Legal (request user service (.publicKeyBlob algorithm (tagged algorithm key))) p

/-- USERAUTH_FAILURE with the methods publickey and password, no partial success -/
def failureReply : Bytes := 51 :: (str (b! "publickey,password") ++ [0])

/-- USERAUTH_SUCCESS -/
def successReply : Bytes := [52]

/-- USERAUTH_PK_OK for a key -/
def pkOkReply (algorithm key : Bytes) : Bytes := 60 :: (str algorithm ++ str (tagged algorithm key))

/-- whether the sealed packet for a payload of `n` bytes (length field, padding length, payload,
least padding, tag) fits a buffer of `N` bytes -/
def FitsBuf (N n : Nat) : Prop := ∃ k, LeastPad .b8 false n k ∧ 5 + n + k + 16 ≤ N

/-- What is logged for a request after which the loop continues; `l` is the log before. -/
inductive Round (H : Handlers) (sid : Bytes) (l : List Event) : List Event → Prop
  | known {p user service algorithm key} : Probe p user service algorithm key →
    H.publicKeyExists (l ++ [.received p]) user service algorithm key = ok () →
    FitsBuf 256 (pkOkReply algorithm key).length →
    Round H sid l [.received p, .probe user service algorithm key true,
      .sent (pkOkReply algorithm key)]
  | unknown {p user service algorithm key} : Probe p user service algorithm key →
    H.publicKeyExists (l ++ [.received p]) user service algorithm key = err () →
    Round H sid l [.received p, .probe user service algorithm key false, .sent failureReply]
  | refused {p user service arg} : Attempt sid p user service arg →
    H.authenticate (l ++ [.received p]) user service arg = err () →
    Round H sid l [.received p, .auth user service arg none, .sent failureReply]

/-- Any number of such requests, one after the other. -/
inductive Rounds (H : Handlers) (sid : Bytes) : List Event → List Event → Prop
  | nil {l} : Rounds H sid l []
  | cons {l r t} : Round H sid l r → Rounds H sid (l ++ r) t → Rounds H sid l (r ++ t)

/-- the accepted request and its answer -/
inductive Accepted (H : Handlers) (sid : Bytes) (l : List Event) (u : Nat) : List Event → Prop
  | mk {p user service arg} : Attempt sid p user service arg →
    H.authenticate (l ++ [.received p]) user service arg = ok u →
    Accepted H sid l u [.received p, .auth user service arg (some u), .sent successReply]

/-- payloads that end the session with an error -/
inductive Malformed (p : Bytes) : Prop
  | unparsable : (∀ m, ¬ Reads p m) → Malformed p
  | notRequest {ua} : Legal (.userAuth ua) p → (∀ r, ua ≠ .request r) → Malformed p
  | blob {user service algorithm blob} :
    Legal (request user service (.publicKeyBlob algorithm blob)) p →
    (∀ key, blob ≠ tagged algorithm key) → Malformed p
  | key {user service algorithm blob signature} :
    Legal (request user service (.publicKeySigned algorithm blob signature)) p →
    (∀ key, blob ≠ tagged algorithm key) → Malformed p
  | signature {user service algorithm key signature} :
    Legal (request user service (.publicKeySigned algorithm (tagged algorithm key) signature)) p →
    (∀ x, signature ≠ tagged algorithm x) → Malformed p

/-- authentication methods the server does not implement -/
def unimplemented : Auth.Method → Bool
  | .passwordRenew _ _ | .hostBased _ _ _ _ _ | .other _ _ => true
  | _ => false

/-- payloads that make the server panic -/
inductive Fatal (sid p : Bytes) : Prop
  | notUserAuth {m} : Reads p m → (∀ ua, m ≠ .userAuth ua) → Fatal sid p
  | method {user service method} : Legal (request user service method) p →
    unimplemented method = true → Fatal sid p
  | tooLong {user service algorithm key signature} :
    Legal (request user service (.publicKeySigned algorithm (tagged algorithm key)
      (tagged algorithm signature))) p →
    1024 < (signData sid user service algorithm (tagged algorithm key)).length → Fatal sid p

/-- How the loop ends and what is logged then. `W` must hold if a write fails, `O` if a packet counter
is exhausted. -/
inductive Final (H : Handlers) (sid : Bytes) (W O : Prop) (l : List Event) :
    R Unit Nat → List Event → Prop
  /-- no further packet -/
  | lost : Final H sid W O l (err ()) []
  | malformed {p} : Malformed p → Final H sid W O l (err ()) [.received p]
  | accepted {u t} : Accepted H sid l u t → Final H sid W O l (ok u) t
  | fatal {p} : Fatal sid p → Final H sid W O l panic [.received p]
  /-- the answer to a probe does not fit the small buffer -/
  | tooLarge {p user service algorithm key} : Probe p user service algorithm key →
    H.publicKeyExists (l ++ [.received p]) user service algorithm key = ok () →
    ¬ FitsBuf 256 (pkOkReply algorithm key).length →
    Final H sid W O l panic [.received p, .probe user service algorithm key true]
  /-- a handler panics -/
  | probePanics {p user service algorithm key} : Probe p user service algorithm key →
    H.publicKeyExists (l ++ [.received p]) user service algorithm key = panic →
    Final H sid W O l panic [.received p]
  | authPanics {p user service arg} : Attempt sid p user service arg →
    H.authenticate (l ++ [.received p]) user service arg = panic →
    Final H sid W O l panic [.received p]
  /-- a write fails -/
  | roundWrite {t} : W → Round H sid l t → Final H sid W O l panic t
  | acceptedWrite {u t} : W → Accepted H sid l u t → Final H sid W O l panic t
  /-- a packet counter is exhausted -/
  | overflow : O → Final H sid W O l panic []
  | roundOverflow {t p} : O → Round H sid l (t ++ [.sent p]) → Final H sid W O l panic t
  | acceptedOverflow {u t p} : O → Accepted H sid l u (t ++ [.sent p]) → Final H sid W O l panic t

/-- the service request for user authentication -/
def ServiceRequested (p : Bytes) : Prop := Legal (.serviceRequest ⟨b! "ssh-userauth"⟩) p

/-- SERVICE_ACCEPT for user authentication -/
def acceptReply : Bytes := 6 :: str (b! "ssh-userauth")

/-- How `authenticate_new_client` ends after the handshake, and what is logged. -/
inductive Session (H : Handlers) (sid : Bytes) (W O : Prop) (l : List Event) :
    R Unit Nat → List Event → Prop
  /-- the first packet cannot be received -/
  | noService : Session H sid W O l panic []
  /-- it is not the service request -/
  | otherMessage {p} : ¬ ServiceRequested p → Session H sid W O l panic [.received p]
  | serviceWrite {p} : W → ServiceRequested p →
    Session H sid W O l panic [.received p, .sent acceptReply]
  | serviceOverflow {p} : O → ServiceRequested p → Session H sid W O l panic [.received p]
  | served {p t r u} : ServiceRequested p →
    Rounds H sid (l ++ [.received p, .sent acceptReply]) t →
    Final H sid W O (l ++ [.received p, .sent acceptReply] ++ t) r u →
    Session H sid W O l r ([.received p, .sent acceptReply] ++ t ++ u)

/-- the payloads received -/
def payloads (t : List Event) : List Bytes :=
  t.filterMap fun e => match e with
    | .received p => some p
    | _ => none

/-- A stream of sealed packets with these payloads, numbered from `n` on, and what follows. Packets
are at most 35000 bytes long. -/
def Stream (K : Crypto) (k : Keys) : Nat → List Bytes → Bytes → Bytes → Prop
  | _, [], w, rest => w = rest
  | n, p :: ps, w, rest => ∃ padding raw w', PacketOf .b8 false p padding raw ∧
      raw.length + 16 ≤ 35000 ∧ w = Spec.sealed K k n raw ++ w' ∧ Stream K k (n + 1) ps w' rest

/-- The same for what is received: packets with any amount of padding are accepted. -/
def Arrive (K : Crypto) (k : Keys) : Nat → List Bytes → Bytes → Bytes → Prop
  | _, [], w, rest => w = rest
  | n, p :: ps, w, rest => ∃ raw w', Framed .b8 false p raw ∧
      raw.length + 16 ≤ 35000 ∧ w = Spec.sealed K k n raw ++ w' ∧ Arrive K k (n + 1) ps w' rest

/-- the histories that end in a panic, if handlers do not panic, writes do not fail and packet
counters are not exhausted -/
inductive PanicHistory (H : Handlers) (sid : Bytes) (l : List Event) : List Event → Prop
  /-- the first packet cannot be received, or is not the service request -/
  | noService : PanicHistory H sid l []
  | otherMessage {p} : ¬ ServiceRequested p → PanicHistory H sid l [.received p]
  /-- a message that is not about authentication, a method that is not implemented, or too much data
  to be signed -/
  | fatal {p0 t p} : ServiceRequested p0 → Rounds H sid (l ++ [.received p0, .sent acceptReply]) t →
    Fatal sid p → PanicHistory H sid l ([.received p0, .sent acceptReply] ++ t ++ [.received p])
  /-- a probe with a large key that is known -/
  | tooLarge {p0 t p user service algorithm key} : ServiceRequested p0 →
    Rounds H sid (l ++ [.received p0, .sent acceptReply]) t →
    Probe p user service algorithm key →
    H.publicKeyExists (l ++ [.received p0, .sent acceptReply] ++ t ++ [.received p]) user service
      algorithm key = ok () →
    ¬ FitsBuf 256 (pkOkReply algorithm key).length →
    PanicHistory H sid l ([.received p0, .sent acceptReply] ++ t ++
      [.received p, .probe user service algorithm key true])

/-- the reply for a result of the authentication handler -/
def authReply : Option Nat → Bytes
  | some _ => successReply
  | none => failureReply

/-- a logged result of the authentication handler -/
def authResult : Option Nat → R Unit Nat
  | some u => ok u
  | none => err ()

/-- What must have happened just before an event of a session. `l0` is the log at the start of the
session, `l` the events of the session before this one. -/
def Explained (H : Handlers) (sid : Bytes) (l0 l : List Event) : Event → Prop
  /- a packet is read first or after a reply other than SUCCESS -/
  | .received _ => l = [] ∨ ∃ l' x, l = l' ++ [.sent x] ∧ x ≠ successReply
  /- a handler is called for the request just read, with what is in it, and with this result -/
  | .probe user service algorithm key known => ∃ l' p, l = l' ++ [.received p] ∧ l' ≠ [] ∧
      Probe p user service algorithm key ∧
      H.publicKeyExists (l0 ++ l) user service algorithm key = if known then ok () else err ()
  | .auth user service arg result => ∃ l' p, l = l' ++ [.received p] ∧ l' ≠ [] ∧
      Attempt sid p user service arg ∧
      H.authenticate (l0 ++ l) user service arg = authResult result
  /- a reply is sent to the service request, or after the call of a handler, according to its result -/
  | .sent x =>
      (∃ p, l = [.received p] ∧ ServiceRequested p ∧ x = acceptReply) ∨
      (∃ l' user service algorithm key known,
        l = l' ++ [.probe user service algorithm key known] ∧
        x = if known then pkOkReply algorithm key else failureReply) ∨
      (∃ l' user service arg result, l = l' ++ [.auth user service arg result] ∧
        x = authReply result)
  /- no process is involved -/
  | .proc _ => False

/-- every event of `t` satisfies `P`, with the events before it -/
def Story (P : List Event → Event → Prop) : List Event → List Event → Prop
  | _, [] => True
  | l, e :: t => P l e ∧ Story P (l ++ [e]) t

end Nora.Spec
