import Verif.Model.Data
/-
Model of nora_ssh_core/src/message/userauth.rs.
-/
namespace Nora
open R

namespace Auth

/-- `Method`, userauth.rs:262-291 -/
inductive Method where
  | none
  | publicKeyBlob (algorithm blob : Bytes)
  | publicKeySigned (algorithm key signature : Bytes)
  | password (password : Bytes)
  | passwordRenew (oldPassword newPassword : Bytes)
  | hostBased (algorithm keyAndCertificates hostName userName signature : Bytes)
  | other (method data : Bytes)
  deriving DecidableEq, Repr

/-- userauth.rs:139-143 -/
structure Request where
  user : Bytes
  service : Bytes
  method : Method
  deriving DecidableEq, Repr

/-- userauth.rs:294-299 -/
inductive RequestParseError where
  | truncated | unread | notAscii | notUtf8
  deriving DecidableEq, Repr

/-- `Request::parse`, userauth.rs:146-201 -/
def Request.parse (data : Bytes) : R RequestParseError Request := do
  let parse := fun data => (parseString data).okOr RequestParseError.truncated
  let empty := fun (data : Bytes) => guardE data.isEmpty RequestParseError.unread
  let (user, data) ← parse data
  let (service, data) ← parse data
  let (method, data) ← parse data
  let method ← (
    if method = b! "none" then do
      empty data
      .ok Method.none
    else if method = b! "publickey" then do
      let (sign, data) ← (splitFirst data).okOr RequestParseError.truncated
      if sign = 0 then do
        let (algorithm, data) ← parse data
        let (blob, data) ← parse data
        empty data
        .ok (Method.publicKeyBlob algorithm blob)
      else do
        let (algorithm, data) ← parse data
        let (key, data) ← parse data
        let (signature, data) ← parse data
        empty data
        .ok (Method.publicKeySigned algorithm key signature)
    else if method = b! "password" then do
      let (renew, data) ← (splitFirst data).okOr RequestParseError.truncated
      if renew = 0 then do
        let (password, data) ← parse data
        empty data
        .ok (Method.password password)
      else do
        let (oldPassword, data) ← parse data
        let (newPassword, data) ← parse data
        empty data
        .ok (Method.passwordRenew oldPassword newPassword)
    else if method = b! "hostbased" then do
      let (algorithm, data) ← parse data
      let (keyAndCertificates, data) ← parse data
      let (hostName, data) ← parse data
      let (userName, data) ← parse data
      let (signature, data) ← parse data
      empty data
      let hostName ← (AsciiStr.tryFrom hostName).okOr RequestParseError.notAscii
      let userName ← (Utf8.fromUtf8 userName).okOr RequestParseError.notUtf8
      .ok (Method.hostBased algorithm keyAndCertificates hostName userName signature)
    else .ok (Method.other method data))
  .ok { user, service, method }

/-- the `match self.method` of `Request::serialize`, userauth.rs:206-256: count, written, rest -/
def Method.serialize (m : Method) (buf : Bytes) : R Unit (Nat × Bytes × Bytes) :=
  match m with
  | .none => makeString2 buf (b! "none")
  | .publicKeyBlob algorithm blob => do
    let (d, w1, buf) ← makeString2 buf (b! "publickey")
    let (e, w2, buf) ← makeBool buf false
    let (f, w3, buf) ← makeString2 buf algorithm
    let (g, w4, buf) ← makeString2 buf blob
    .ok (d + e + f + g, w1 ++ (w2 ++ (w3 ++ w4)), buf)
  | .publicKeySigned algorithm key signature => do
    let (d, w1, buf) ← makeString2 buf (b! "publickey")
    let (e, w2, buf) ← makeBool buf true
    let (f, w3, buf) ← makeString2 buf algorithm
    let (g, w4, buf) ← makeString2 buf key
    let (h, w5, buf) ← makeString2 buf signature
    .ok (d + e + f + g + h, w1 ++ (w2 ++ (w3 ++ (w4 ++ w5))), buf)
  | .password pw => do
    let (d, w1, buf) ← makeString2 buf (b! "password")
    let (e, w2, buf) ← makeBool buf false
    let (f, w3, buf) ← makeString2 buf pw
    .ok (d + e + f, w1 ++ (w2 ++ w3), buf)
  | .passwordRenew oldPassword newPassword => do
    let (d, w1, buf) ← makeString2 buf (b! "password")
    let (e, w2, buf) ← makeBool buf true
    let (f, w3, buf) ← makeString2 buf oldPassword
    let (g, w4, buf) ← makeString2 buf newPassword
    .ok (d + e + f + g, w1 ++ (w2 ++ (w3 ++ w4)), buf)
  | .hostBased algorithm keyAndCertificates hostName userName signature => do
    let (d, w1, buf) ← makeString2 buf (b! "hostbased")
    let (e, w2, buf) ← makeString2 buf algorithm
    let (f, w3, buf) ← makeString2 buf keyAndCertificates
    let (g, w4, buf) ← makeString2 buf hostName
    let (h, w5, buf) ← makeString2 buf userName
    let (i, w6, buf) ← makeString2 buf signature
    .ok (d + e + f + g + h + i, w1 ++ (w2 ++ (w3 ++ (w4 ++ (w5 ++ w6)))), buf)
  | .other method data => do
    let (d, w1, buf) ← makeString2 buf method
    let (e, w2, buf) ← makeRaw buf data
    .ok (d + e, w1 ++ w2, buf)

/-- `Request::serialize`, userauth.rs:203-258 -/
def Request.serialize (r : Request) (buf : Bytes) : R Unit (Nat × Bytes) := do
  let (a, w1, buf) ← makeString2 buf r.user
  let (b, w2, buf) ← makeString2 buf r.service
  let (c, w3, buf) ← r.method.serialize buf
  .ok (a + b + c, w1 ++ (w2 ++ (w3 ++ buf)))

/-- userauth.rs:301-304 -/
structure Failure where
  alternativeMethods : NameList
  partialSuccess : Bool
  deriving DecidableEq, Repr

/-- userauth.rs:328-332 -/
inductive FailureParseError where
  | truncated | unread | invalidNameList (e : InvalidNameList)
  deriving DecidableEq, Repr

/-- `Failure::parse`, userauth.rs:307-318 -/
def Failure.parse (data : Bytes) : R FailureParseError Failure := do
  let (alternativeMethods, data) ← (parseString data).okOr .truncated
  match data with
  | [] => .err .truncated
  | [partialSuccess] => do
    let alternativeMethods ← (NameList.tryFrom alternativeMethods).mapErr .invalidNameList
    .ok { alternativeMethods, partialSuccess := partialSuccess != 0 }
  | _ => .err .unread

/-- `Failure::serialize`, userauth.rs:320-324 -/
def Failure.serialize (f : Failure) (buf : Bytes) : R Unit (Nat × Bytes) := do
  let (a, w1, buf) ← makeString2 buf f.alternativeMethods.str
  let (b, w2, buf) ← makeBool buf f.partialSuccess
  .ok (a + b, w1 ++ (w2 ++ buf))

/-- userauth.rs:349-351 -/
inductive SuccessParseError where
  | unread
  deriving DecidableEq, Repr

/-- `Success::parse`, userauth.rs:337-341 -/
def Success.parse (data : Bytes) : R SuccessParseError Unit := guardE data.isEmpty .unread

/-- `Success::serialize`, userauth.rs:343-345 -/
def Success.serialize (buf : Bytes) : R Unit (Nat × Bytes) := .ok (0, buf)

/-- userauth.rs:353-356 -/
structure Banner where
  message : Bytes
  language : Bytes
  deriving DecidableEq, Repr

/-- userauth.rs:375-378 -/
inductive BannerParseError where
  | truncated | unread
  deriving DecidableEq, Repr

/-- `Banner::parse`, userauth.rs:359-365 -/
def Banner.parse (data : Bytes) : R BannerParseError Banner := do
  let (message, data) ← (parseString data).okOr .truncated
  let (language, data) ← (parseString data).okOr .truncated
  guardE data.isEmpty .unread
  .ok { message, language }

/-- `Banner::serialize`, userauth.rs:367-371 -/
def Banner.serialize (o : Banner) (buf : Bytes) : R Unit (Nat × Bytes) := do
  let (a, w1, buf) ← makeString2 buf o.message
  let (b, w2, buf) ← makeString2 buf o.language
  .ok (a + b, w1 ++ (w2 ++ buf))

/-- userauth.rs:380-383 -/
structure PublicKeyOk where
  algorithm : Bytes
  blob : Bytes
  deriving DecidableEq, Repr

/-- userauth.rs:402-405 -/
inductive PublicKeyOkParseError where
  | truncated | unread
  deriving DecidableEq, Repr

/-- `PublicKeyOk::parse`, userauth.rs:386-392 -/
def PublicKeyOk.parse (data : Bytes) : R PublicKeyOkParseError PublicKeyOk := do
  let (algorithm, data) ← (parseString data).okOr .truncated
  let (blob, data) ← (parseString data).okOr .truncated
  guardE data.isEmpty .unread
  .ok { algorithm, blob }

/-- `PublicKeyOk::serialize`, userauth.rs:394-398 -/
def PublicKeyOk.serialize (o : PublicKeyOk) (buf : Bytes) : R Unit (Nat × Bytes) := do
  let (a, w1, buf) ← makeString2 buf o.algorithm
  let (b, w2, buf) ← makeString2 buf o.blob
  .ok (a + b, w1 ++ (w2 ++ buf))

/-- `format_sign_data`, userauth.rs:410-428; `UserAuth::REQUEST` = 50 (userauth.rs:19).
The result is the used prefix of the buffer. -/
def formatSignData (buf sessionIdentifier user service algorithm blob : Bytes) :
    R Unit Bytes := do
  let len := buf.length
  let (_, w1, b) ← makeString2 buf sessionIdentifier
  let (_, w2, b) ← makeRaw b [50]
  let (_, w3, b) ← makeString2 b user
  let (_, w4, b) ← makeString2 b service
  let (_, w5, b) ← makeString2 b (b! "publickey")
  let (_, w6, b) ← makeBool b true
  let (_, w7, b) ← makeString2 b algorithm
  let (_, w8, b) ← makeString2 b blob
  let l := b.length
  let buf := w1 ++ (w2 ++ (w3 ++ (w4 ++ (w5 ++ (w6 ++ (w7 ++ (w8 ++ b)))))))
  let n ← subP len l
  idxTo buf n

end Auth

/-- `UserAuth`, userauth.rs:10-16 -/
inductive UserAuth where
  | request (o : Auth.Request)
  | failure (o : Auth.Failure)
  | success
  | banner (o : Auth.Banner)
  | publicKeyOk (o : Auth.PublicKeyOk)
  deriving DecidableEq, Repr

/-- `userauth::ParseError`, userauth.rs:130-137 -/
inductive UserAuthParseError where
  | unknownMessageType (ty : Byte)
  | request (e : Auth.RequestParseError)
  | failure (e : Auth.FailureParseError)
  | success (e : Auth.SuccessParseError)
  | banner (e : Auth.BannerParseError)
  | publicKeyOk (e : Auth.PublicKeyOkParseError)
  deriving DecidableEq, Repr

/-- `UserAuth::parse`, userauth.rs:25-44; constants 19-23 -/
def UserAuth.parse (ty : Byte) (data : Bytes) : R UserAuthParseError UserAuth :=
  if ty = 50 then ((Auth.Request.parse data).map UserAuth.request).mapErr .request
  else if ty = 51 then ((Auth.Failure.parse data).map UserAuth.failure).mapErr .failure
  else if ty = 52 then ((Auth.Success.parse data).map (fun _ => UserAuth.success)).mapErr .success
  else if ty = 53 then ((Auth.Banner.parse data).map UserAuth.banner).mapErr .banner
  else if ty = 60 then
    ((Auth.PublicKeyOk.parse data).map UserAuth.publicKeyOk).mapErr .publicKeyOk
  else .err (.unknownMessageType ty)

/-- `UserAuth::serialize`, userauth.rs:46-71; constants 19-23 -/
def UserAuth.serialize (u : UserAuth) (buf : Bytes) : R Unit (Nat × Bytes) := do
  let (_, buf) ← splitFirst buf
  let (t, i, buf) ← (match u with
    | .request o => (o.serialize buf).map (fun x => ((50 : Byte), x))
    | .failure o => (o.serialize buf).map (fun x => (51, x))
    | .success => (Auth.Success.serialize buf).map (fun x => (52, x))
    | .banner o => (o.serialize buf).map (fun x => (53, x))
    | .publicKeyOk o => (o.serialize buf).map (fun x => (60, x)))
  .ok (i + 1, t :: buf)

end Nora
