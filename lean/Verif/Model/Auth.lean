import Verif.Model.Host
import Verif.Model.Transport
/-
Model of `Server::authenticate_new_client`, nora_ssh/src/server.rs:81-241. The function is cut into
the parts between its comments; the cuts are at the line ranges given.
-/
namespace Nora
open R

/-- `into_service_request`, message/mod.rs:189 -/
def Message.intoServiceRequest : Message → R Unit Msg.Service
  | .serviceRequest o => .ok o
  | _ => .err ()

/-- `into_user_auth`, message/mod.rs:191 -/
def Message.intoUserAuth : Message → R Unit UserAuth
  | .userAuth o => .ok o
  | _ => .err ()

/-- `UserAuth::into_request`, message/userauth.rs:107-112 and 123 -/
def UserAuth.intoRequest : UserAuth → R Unit Auth.Request
  | .request o => .ok o
  | _ => .err ()

/-- The authentication handlers of the application (`ServerHandlers::authenticate` and
`public_key_exists`, server.rs:584-596). They may depend on everything that has happened on the
connection, and may panic. -/
structure Handlers where
  publicKeyExists : List Event → Bytes → Bytes → Bytes → Bytes → R Unit Unit
  authenticate : List Event → Bytes → Bytes → AuthArg → R Unit Nat

/-- the variables of `authenticate_new_client` that change in its loop: the ciphers of `wr_enc` and
`rd_enc`, and the buffers. (`message`, server.rs:124, is only ever overwritten before use, so only its
length is modelled.) -/
structure AuthSt where
  send : ChaCha
  receive : ChaCha
  pktBuf : Bytes
  mini : Bytes
  deriving DecidableEq, Repr

/-- what is left in the `Client` (server.rs:216-222) besides the connection: the ciphers and the user -/
structure Authenticated where
  send : ChaCha
  receive : ChaCha
  user : Nat
  deriving DecidableEq, Repr

namespace Server

variable (K : Crypto) (H : Handlers)

/-- `wr_enc.send(buf, |buf| msg.serialize(buf).unwrap().0.len(), …).await.unwrap()` -/
def send (c : ChaCha) (buf : Bytes) (m : Message) : M Unit (ChaCha × Bytes) :=
  (Out.send K c buf (Message.write m)).unwrap

/-- call of `public_key_exists` -/
def publicKeyExists (user service algorithm key : Bytes) : M Unit Bool := do
  let log ← M.getLog
  match H.publicKeyExists log user service algorithm key with
  | .ok () => do
    M.logEvent (.probe user service algorithm key true)
    pure true
  | .err () => do
    M.logEvent (.probe user service algorithm key false)
    pure false
  | .panic => M.panic

/-- call of `authenticate` -/
def authenticate (user service : Bytes) (arg : AuthArg) : M Unit (Option Nat) := do
  let log ← M.getLog
  match H.authenticate log user service arg with
  | .ok u => do
    M.logEvent (.auth user service arg (some u))
    pure (some u)
  | .err () => do
    M.logEvent (.auth user service arg none)
    pure none
  | .panic => M.panic

/-- the failure message, server.rs:149-152 and 225-228; the `try_into().unwrap()` of the literal is
evaluated -/
def failure : Message :=
  .userAuth (.failure { alternativeMethods := ⟨b! "publickey,password"⟩, partialSuccess := false })

/-- unwrapping of a key or signature blob, server.rs:134-141, 167-174 and 176-183 -/
def unwrapBlob (algorithm blob : Bytes) : R Unit Bytes := do
  let (a, b) ← (parseString blob).okOr ()
  let (key, b) ← (parseString b).okOr ()
  if !b.isEmpty then .err ()
  else if algorithm ≠ a then .err ()
  else .ok key

/-- the credentials to check, server.rs:131-201, for every method but `PublicKeyBlob` -/
def credentials (sid : Bytes) (ua : Auth.Request) : R Unit AuthArg :=
  match ua.method with
  | .none => .ok .none
  | .publicKeyBlob _ _ => .err () -- not used
  | .publicKeySigned algorithm keyBlob signature => do
    let key ← unwrapBlob algorithm keyBlob
    let signature ← unwrapBlob algorithm signature
    let message ← (Auth.formatSignData (List.replicate 1024 0) sid ua.user ua.service algorithm
      keyBlob).unwrap -- `unwrap_or_else(|| todo!())`
    .ok (.publicKey algorithm key signature message)
  | .password password => .ok (.password password)
  | .passwordRenew _ _ => .panic
  | .hostBased _ _ _ _ _ => .panic
  | .other _ _ => .panic

/-- a request without signature, server.rs:133-165 -/
def probe (st : AuthSt) (ua : Auth.Request) (algorithm blob : Bytes) : M Unit AuthSt := do
  let key ← M.lift (unwrapBlob algorithm blob)
  let known ← publicKeyExists H ua.user ua.service algorithm key
  let msg := if known then .userAuth (.publicKeyOk { algorithm, blob }) else failure
  let (c, mini) ← send K st.send st.mini msg
  pure { st with send := c, mini }

/-- a request with credentials, server.rs:131-132 and 166-239: `inl` continues the loop -/
def check (sid : Bytes) (st : AuthSt) (ua : Auth.Request) : M Unit (AuthSt ⊕ Authenticated) := do
  let arg ← M.lift (credentials sid ua)
  match ← authenticate H ua.user ua.service arg with
  | some user => do
    let (c, _) ← send K st.send st.pktBuf (.userAuth .success)
    pure (.inr { send := c, receive := st.receive, user })
  | none => do
    let (c, pktBuf) ← send K st.send st.pktBuf failure
    pure (.inl { st with send := c, pktBuf })

/-- one iteration of the loop, server.rs:126-239: `inl` continues the loop -/
def attempt (sid : Bytes) (st : AuthSt) : M Unit (AuthSt ⊕ Authenticated) := do
  let (data, receive, pktBuf) ← (In.recv K st.receive st.pktBuf).mapErr (fun _ => ())
  let st := { st with receive, pktBuf }
  let msg ← M.lift ((Message.parse data).mapErr (fun _ => ()))
  let ua ← M.lift msg.intoUserAuth.unwrap
  let ua ← M.lift (ua.intoRequest.okOr ())
  match ua.method with
  | .publicKeyBlob algorithm blob => do
    let st ← probe K H st ua algorithm blob
    pure (.inl st)
  | _ => check K H sid st ua

/-- at most `n` iterations of the loop; see `loop` -/
def loopN (sid : Bytes) : Nat → AuthSt → M Unit Authenticated
  | 0, _ => M.panic
  | n + 1, st => do
    match ← attempt K H sid st with
    | .inl st => loopN sid n st
    | .inr c => pure c

/-- the loop, server.rs:125-240. Every iteration that continues has consumed input, so more
iterations than bytes are not possible; `Server.loop_eq` shows that this is the loop. -/
def loop (sid : Bytes) (st : AuthSt) : M Unit Authenticated := fun s =>
  loopN K H sid (s.inp.length + 1) st s

/-- the service request, server.rs:103-121 -/
def service (st : AuthSt) : M Unit AuthSt := do
  let (data, receive, pktBuf) ← (In.recv K st.receive st.pktBuf).unwrap
  let msg ← M.lift (Message.parse data).unwrap
  let srv ← M.lift msg.intoServiceRequest.unwrap
  if srv.serviceName = b! "ssh-userauth" then do
    let (c, mini) ← send K st.send st.mini (.serviceAccept { serviceName := srv.serviceName })
    pure { send := c, receive, pktBuf, mini }
  else M.panic

/-- `authenticate_new_client`, server.rs:81-241 -/
def authenticateNewClient (ident : Bytes) : M Unit Authenticated := do
  let client ← (Host.handleNewClient K ident).mapErr (fun _ => ())
  let st ← service K { send := client.sendCipher, receive := client.receiveCipher,
                       pktBuf := List.replicate 35000 0, mini := List.replicate 256 0 }
  loop K H client.sessionIdentifier st

end Server

end Nora
