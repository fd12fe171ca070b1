import Verif.Spec.Wire
/-
Which errors the payload of a packet has, by the wire format (`Spec/Wire`). Only the data types of the model are
used here.
-/
namespace Nora.Spec

/-- a field of a message: some number of bytes, or a string -/
inductive Field where
  | raw (n : Nat)
  | str

/-- the contents a field can have -/
def Field.Ok : Field → Bytes → Prop
  | .raw n, v => v.length = n
  | .str, v => Fits v

/-- the bytes of a field with this content -/
def Field.bytes : Field → Bytes → Bytes
  | .raw _, v => v
  | .str, v => Spec.str v

/-- `b` is these fields, with the contents `vs` -/
inductive Fields : List Field → List Bytes → Bytes → Prop
  | nil : Fields [] [] []
  | cons {f v fs vs b} : f.Ok v → Fields fs vs b → Fields (f :: fs) (v :: vs) (f.bytes v ++ b)

/-- bytes are missing at the end: with more of them it is these fields -/
def Short (fs : List Field) (d : Bytes) : Prop := ∃ t vs, t ≠ [] ∧ Fields fs vs (d ++ t)

/-- it is these fields, and `rest` -/
def Whole (fs : List Field) (vs : List Bytes) (rest d : Bytes) : Prop := ∃ b, Fields fs vs b ∧ d = b ++ rest

/-- the errors of a message that is these fields: bytes are missing, or there are more -/
def Misfit {ε : Type} (fs : List Field) (truncated unread : ε) (d : Bytes) (e : ε) : Prop :=
  (Short fs d ∧ e = truncated) ∨ ∃ vs rest, Whole fs vs rest d ∧ rest ≠ [] ∧ e = unread

/-- the error of a string that is not a list of names -/
def BadNames (s : Bytes) (e : InvalidNameList) : Prop :=
  ¬ NameListOk s ∧ e = if Ascii s then .emptyName else .notAscii

/-- the lists of a KEXINIT -/
def lists (n : Nat) : List Field := List.replicate n .str

/-- KEXINIT: cookie, ten lists of names, a boolean, four bytes zero. The lists are looked at one after the other,
each when it is complete. -/
inductive KexInitError (d : Bytes) : Kex.KexInitParseError → Prop
  | truncated : Short (.raw 16 :: lists 10 ++ [.raw 1, .raw 4]) d →
    (∀ n vs rest, Whole (.raw 16 :: lists n) vs rest d → n ≤ 10 → ∀ l ∈ vs.tail, NameListOk l) →
    KexInitError d .truncated
  | invalidNameList {n c ls l rest e} : Whole (.raw 16 :: lists (n + 1)) (c :: (ls ++ [l])) rest d → n < 10 →
    (∀ l ∈ ls, NameListOk l) → BadNames l e → KexInitError d (.invalidNameList e)
  | noTrailingZero {c ls f z rest} : Whole (.raw 16 :: lists 10 ++ [.raw 1, .raw 4]) (c :: (ls ++ [f, z])) rest d →
    (∀ l ∈ ls, NameListOk l) → z ≠ [0, 0, 0, 0] → KexInitError d .noTrailingZero
  | unread {c ls f rest} : Whole (.raw 16 :: lists 10 ++ [.raw 1, .raw 4]) (c :: (ls ++ [f, [0, 0, 0, 0]])) rest d →
    (∀ l ∈ ls, NameListOk l) → rest ≠ [] → KexInitError d .unread

/-- the fields of a user authentication request after the name of the method -/
inductive MethodError (d : Bytes) : Bytes → Auth.RequestParseError → Prop
  | none : d ≠ [] → MethodError d (b! "none") .unread
  | noFlag {m} : m = b! "publickey" ∨ m = b! "password" → d = [] → MethodError d m .truncated
  | probe {r e} : d = 0 :: r → Misfit [.str, .str] .truncated .unread r e → MethodError d (b! "publickey") e
  | signed {a r e} : d = a :: r → a ≠ 0 → Misfit [.str, .str, .str] .truncated .unread r e →
    MethodError d (b! "publickey") e
  | password {r e} : d = 0 :: r → Misfit [.str] .truncated .unread r e → MethodError d (b! "password") e
  | renew {a r e} : d = a :: r → a ≠ 0 → Misfit [.str, .str] .truncated .unread r e →
    MethodError d (b! "password") e
  | hostBased {e} : Misfit [.str, .str, .str, .str, .str] .truncated .unread d e → MethodError d (b! "hostbased") e
  | hostName {a k h u s} : Whole [.str, .str, .str, .str, .str] [a, k, h, u, s] [] d → ¬ Ascii h →
    MethodError d (b! "hostbased") .notAscii
  | userName {a k h u s} : Whole [.str, .str, .str, .str, .str] [a, k, h, u, s] [] d → Ascii h → ¬ Utf8 u →
    MethodError d (b! "hostbased") .notUtf8

/-- the errors of a message with the number `t`, by what follows -/
inductive BodyError (d : Bytes) : Nat → MessageParseError → Prop
  | disconnect {e} : Misfit [.raw 4, .str, .str] .badLength .badLength d e → BodyError d 1 (.disconnect e)
  | ignore {e} : Misfit [.str] .truncated .unread d e → BodyError d 2 (.ignore e)
  | unimplemented {e} : Misfit [.raw 4] .truncated .unread d e → BodyError d 3 (.unimplemented e)
  | debugShort : Short [.raw 1, .str, .str] d → BodyError d 4 (.debug .truncated)
  | debugText {a m l rest} : Whole [.raw 1, .str, .str] [a, m, l] rest d → ¬ Utf8 m →
    BodyError d 4 (.debug .invalidUtf8)
  | debugLong {a m l rest} : Whole [.raw 1, .str, .str] [a, m, l] rest d → Utf8 m → rest ≠ [] →
    BodyError d 4 (.debug .unread)
  | serviceRequest {e} : Misfit [.str] .badLength .badLength d e → BodyError d 5 (.serviceRequest e)
  | serviceAccept {e} : Misfit [.str] .badLength .badLength d e → BodyError d 6 (.serviceAccept e)
  | kexInit {e} : KexInitError d e → BodyError d 20 (.kexInit e)
  | newKeys : d ≠ [] → BodyError d 21 (.newKeys .unread)
  | kexEcdhInit {e} : Misfit [.str] .truncated .unread d e → BodyError d 30 (.kexEcdhInit e)
  /-- no reply is accepted (C03) -/
  | kexEcdhReply : Short [.str] d → BodyError d 31 (.kexEcdhReply .truncated)
  | kexEcdhReplyBad {k rest} : Whole [.str] [k] rest d → BodyError d 31 (.kexEcdhReply .badData)
  | request : Short [.str, .str, .str] d → BodyError d 50 (.userAuth (.request .truncated))
  | method {u s m rest e} : Whole [.str, .str, .str] [u, s, m] rest d → MethodError rest m e →
    BodyError d 50 (.userAuth (.request e))
  | failure {e} : Misfit [.str, .raw 1] .truncated .unread d e → BodyError d 51 (.userAuth (.failure e))
  | failureNames {l a e} : Whole [.str, .raw 1] [l, a] [] d → BadNames l e →
    BodyError d 51 (.userAuth (.failure (.invalidNameList e)))
  | success : d ≠ [] → BodyError d 52 (.userAuth (.success .unread))
  | banner {e} : Misfit [.str, .str] .truncated .unread d e → BodyError d 53 (.userAuth (.banner e))
  | publicKeyOk {e} : Misfit [.str, .str] .truncated .unread d e → BodyError d 60 (.userAuth (.publicKeyOk e))
  | open {e} : Misfit [.str, .raw 4, .raw 4, .raw 4] .truncated .unread d e → BodyError d 90 (.channel (.open e))
  | openConfirmation : Short [.raw 4, .raw 4, .raw 4, .raw 4] d →
    BodyError d 91 (.channel (.openConfirmation .truncated))
  | openFailure {e} : Misfit [.raw 4, .raw 4, .str, .str] .truncated .unread d e →
    BodyError d 92 (.channel (.openFailure e))
  | openFailureText {c r s l} : Whole [.raw 4, .raw 4, .str, .str] [c, r, s, l] [] d → ¬ Utf8 s →
    BodyError d 92 (.channel (.openFailure .invalidUtf8))
  | windowAdjust {e} : Misfit [.raw 4, .raw 4] .truncated .unread d e → BodyError d 93 (.channel (.windowAdjust e))
  | data {e} : Misfit [.raw 4, .str] .truncated .unread d e → BodyError d 94 (.channel (.data e))
  | extendedData {e} : Misfit [.raw 4, .raw 4, .str] .truncated .unread d e →
    BodyError d 95 (.channel (.extendedData e))
  | eof {e} : Misfit [.raw 4] .badLength .badLength d e → BodyError d 96 (.channel (.eof e))
  | close {e} : Misfit [.raw 4] .badLength .badLength d e → BodyError d 97 (.channel (.close e))
  | channelRequest : Short [.raw 4, .str, .raw 1] d → BodyError d 98 (.channel (.request .truncated))
  | channelSuccess {e} : Misfit [.raw 4] .badLength .badLength d e → BodyError d 99 (.channel (.success e))
  | channelFailure {e} : Misfit [.raw 4] .badLength .badLength d e → BodyError d 100 (.channel (.failure e))

/-- the numbers of messages -/
def Number (t : Nat) : Prop :=
  t ∈ [1, 2, 3, 4, 5, 6, 20, 21, 30, 31, 50, 51, 52, 53, 60, 90, 91, 92, 93, 94, 95, 96, 97, 98, 99, 100]

/-- the errors of a payload -/
inductive ParseError : Bytes → MessageParseError → Prop
  | empty : ParseError [] .noMessageType
  | body {t d e} : BodyError d t.toNat e → ParseError (t :: d) e
  | authNumber {t : Byte} {d} : ¬ Number t.toNat → 50 ≤ t.toNat → t.toNat ≤ 79 →
    ParseError (t :: d) (.userAuth (.unknownMessageType t))
  | channelNumber {t : Byte} {d} : ¬ Number t.toNat → 90 ≤ t.toNat → t.toNat ≤ 127 →
    ParseError (t :: d) (.channel (.unknownMessageType t))
  | number {t : Byte} {d} : ¬ Number t.toNat → ¬ (50 ≤ t.toNat ∧ t.toNat ≤ 79) → ¬ (90 ≤ t.toNat ∧ t.toNat ≤ 127) →
    ParseError (t :: d) (.unknownMessageType t)

end Nora.Spec
