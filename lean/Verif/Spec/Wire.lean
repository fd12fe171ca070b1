import Verif.Model.Message
import Verif.Model.Session
/-
Independent specification of the SSH wire format (RFC 4251 section 5, RFC 4253, RFC 4252,
RFC 4254): what bytes each message is. Only the *data types* of the model are used here, none of
its functions.
-/
namespace Nora.Spec

/-- RFC 4251: uint32, big endian -/
def u32 (n : Nat) : Bytes :=
  [UInt8.ofNat (n / 16777216), UInt8.ofNat (n / 65536), UInt8.ofNat (n / 256), UInt8.ofNat n]

/-- RFC 4251: string -/
def str (s : Bytes) : Bytes := u32 s.length ++ s

/-- RFC 4251: boolean. All non-zero values stand for true; `t` is the one used. -/
def boolT (t : Byte) (b : Bool) : Bytes := [if b then t else 0]

/-- a string that fits the 32-bit length field -/
def Fits (s : Bytes) : Prop := s.length < 4294967296

instance (s : Bytes) : Decidable (Fits s) := inferInstanceAs (Decidable (_ < _))

/-- all bytes are 7-bit -/
def Ascii (s : Bytes) : Prop := ∀ b ∈ s, b.toNat < 128

instance (s : Bytes) : Decidable (Ascii s) := inferInstanceAs (Decidable (∀ b ∈ s, _))

/-! ### UTF-8 (RFC 3629), by encoding of scalar values -/

/-- Unicode scalar value -/
def Scalar (c : Nat) : Prop := c < 0xD800 ∨ (0xE000 ≤ c ∧ c < 0x110000)

instance (c : Nat) : Decidable (Scalar c) := inferInstanceAs (Decidable (_ ∨ _))

/-- the UTF-8 encoding of a scalar value, RFC 3629 section 3 -/
def utf8Enc (c : Nat) : Bytes :=
  if c < 0x80 then [UInt8.ofNat c]
  else if c < 0x800 then [UInt8.ofNat (0xC0 + c / 64), UInt8.ofNat (0x80 + c % 64)]
  else if c < 0x10000 then
    [UInt8.ofNat (0xE0 + c / 4096), UInt8.ofNat (0x80 + c / 64 % 64), UInt8.ofNat (0x80 + c % 64)]
  else
    [UInt8.ofNat (0xF0 + c / 262144), UInt8.ofNat (0x80 + c / 4096 % 64),
     UInt8.ofNat (0x80 + c / 64 % 64), UInt8.ofNat (0x80 + c % 64)]

/-- a byte string is UTF-8 iff it is the concatenation of encodings of scalar values -/
def Utf8 (s : Bytes) : Prop := ∃ cs : List Nat, (∀ c ∈ cs, Scalar c) ∧ s = (cs.map utf8Enc).flatten

/-! ### name-list -/

/-- names joined by commas -/
def joinComma : List Bytes → Bytes
  | [] => []
  | [a] => a
  | a :: t => a ++ 44 :: joinComma t

/-- a legal name: not empty, ASCII, no comma -/
def Name (n : Bytes) : Prop := n ≠ [] ∧ Ascii n ∧ (44 : Byte) ∉ n

instance (n : Bytes) : Decidable (Name n) := inferInstanceAs (Decidable (_ ∧ _ ∧ _))

/-- a legal name-list with these names -/
def NameListOf (names : List Bytes) (s : Bytes) : Prop := (∀ n ∈ names, Name n) ∧ s = joinComma names

/-- a legal name-list -/
def NameListOk (s : Bytes) : Prop := ∃ names, NameListOf names s

/-! ### mpint -/

/-- the value of a big-endian byte string -/
def beVal (s : Bytes) : Nat := s.foldl (fun n b => 256 * n + b.toNat) 0

/-- RFC 4251: `s` is the two's complement, minimal, big-endian representation of the natural
number `n` (the content of an mpint, without the length) -/
def MpintBody (n : Nat) (s : Bytes) : Prop :=
  beVal s = n ∧
  -- interpreted as two's complement it is not negative
  (∀ a, s.head? = some a → a.toNat < 128) ∧
  -- no unnecessary leading byte
  (∀ a b t, s = a :: b :: t → a = 0 → 128 ≤ b.toNat) ∧ s ≠ [0]

/-! ### messages -/

/-- message numbers, RFC 4250 section 4.1.2 -/
def msgNum : Message → Nat
  | .disconnect _ => 1
  | .ignore _ => 2
  | .unimplemented _ => 3
  | .debug _ => 4
  | .serviceRequest _ => 5
  | .serviceAccept _ => 6
  | .kexInit _ => 20
  | .newKeys => 21
  | .kexEcdhInit _ => 30
  | .kexEcdhReply _ => 31
  | .userAuth (.request _) => 50
  | .userAuth (.failure _) => 51
  | .userAuth .success => 52
  | .userAuth (.banner _) => 53
  | .userAuth (.publicKeyOk _) => 60
  | .channel (.open _) => 90
  | .channel (.openConfirmation _) => 91
  | .channel (.openFailure _) => 92
  | .channel (.windowAdjust _) => 93
  | .channel (.data _) => 94
  | .channel (.extendedData _) => 95
  | .channel (.eof _) => 96
  | .channel (.close _) => 97
  | .channel (.request _) => 98
  | .channel (.success _) => 99
  | .channel (.failure _) => 100

/-- RFC 4254 section 5.1 -/
def reasonNum : Chan.OpenFailureReason → Nat
  | .adminstrativelyProhibited => 1
  | .connectFailed => 2
  | .unknownChannelType => 3
  | .resourceShortage => 4
  | .other r => r.toNat

/-- the method-specific part of USERAUTH_REQUEST, RFC 4252 sections 5-9 -/
def methodBody (t : Byte) : Auth.Method → Bytes
  | .none => str (b! "none")
  | .publicKeyBlob algorithm blob =>
    str (b! "publickey") ++ boolT t false ++ str algorithm ++ str blob
  | .publicKeySigned algorithm key signature =>
    str (b! "publickey") ++ boolT t true ++ str algorithm ++ str key ++ str signature
  | .password password => str (b! "password") ++ boolT t false ++ str password
  | .passwordRenew old new => str (b! "password") ++ boolT t true ++ str old ++ str new
  | .hostBased algorithm key host user signature =>
    str (b! "hostbased") ++ str algorithm ++ str key ++ str host ++ str user ++ str signature
  | .other method data => str method ++ data

/-- RFC 5656 section 3.1: host key blob -/
def hostKey (k : Kex.Key) : Bytes := str k.name ++ str k.blob.identifier ++ str k.blob.q

/-- RFC 5656 section 3.1.2: signature blob around two already encoded mpint bodies -/
def sigBlob (name r s : Bytes) : Bytes := str name ++ str (str r ++ str s)

/-- the fields of a message after the message number, RFC 4253 section 11, 4252, 4254, 5656;
`t` is the byte standing for `true` (every message has at most one boolean) -/
def body (t : Byte) : Message → Bytes
  | .disconnect o => u32 o.reason.toNat ++ str o.description ++ str o.language
  | .ignore o => str o.data
  | .unimplemented o => u32 o.sequenceNumber.toNat
  | .debug o => boolT t o.alwaysDisplay ++ str o.message ++ str o.language
  | .serviceRequest o => str o.serviceName
  | .serviceAccept o => str o.serviceName
  | .kexInit o =>
    o.cookie ++ str o.kexAlgorithms.str ++ str o.serverHostKeyAlgorithms.str
      ++ str o.encryptionAlgorithmsClientToServer.str ++ str o.encryptionAlgorithmsServerToClient.str
      ++ str o.macAlgorithmsClientToServer.str ++ str o.macAlgorithmsServerToClient.str
      ++ str o.compressionAlgorithmsClientToServer.str
      ++ str o.compressionAlgorithmsServerToClient.str
      ++ str o.languagesClientToServer.str ++ str o.languagesServerToClient.str
      ++ boolT t o.firstKexPacketFollows ++ u32 0
  | .newKeys => []
  | .kexEcdhInit o => str o.clientEphermalPublicKey
  | .kexEcdhReply o =>
    str (hostKey o.serverPublicKey) ++ str o.serverEphermalPublicKey
      ++ str (sigBlob o.exchangeHashSignature.name o.exchangeHashSignature.blob.r
          o.exchangeHashSignature.blob.s)
  | .userAuth (.request o) => str o.user ++ str o.service ++ methodBody t o.method
  | .userAuth (.failure o) => str o.alternativeMethods.str ++ boolT t o.partialSuccess
  | .userAuth .success => []
  | .userAuth (.banner o) => str o.message ++ str o.language
  | .userAuth (.publicKeyOk o) => str o.algorithm ++ str o.blob
  | .channel (.open o) =>
    str o.ty ++ u32 o.senderChannel.toNat ++ u32 o.windowSize.toNat ++ u32 o.maxPacketSize.toNat
  | .channel (.openConfirmation o) =>
    u32 o.recipientChannel.toNat ++ u32 o.senderChannel.toNat ++ u32 o.windowSize.toNat
      ++ u32 o.maxPacketSize.toNat ++ o.data
  | .channel (.openFailure o) =>
    u32 o.recipientChannel.toNat ++ u32 (reasonNum o.reason) ++ str o.description ++ str o.language
  | .channel (.windowAdjust o) => u32 o.recipientChannel.toNat ++ u32 o.addBytes.toNat
  | .channel (.data o) => u32 o.recipientChannel.toNat ++ str o.data
  | .channel (.extendedData o) => u32 o.recipientChannel.toNat ++ u32 o.ty.toNat ++ str o.data
  | .channel (.eof o) => u32 o.recipientChannel.toNat
  | .channel (.close o) => u32 o.recipientChannel.toNat
  | .channel (.request o) =>
    u32 o.recipientChannel.toNat ++ str o.ty ++ boolT t o.wantReply ++ o.data
  | .channel (.success o) => u32 o.recipientChannel.toNat
  | .channel (.failure o) => u32 o.recipientChannel.toNat

/-- a message on the wire, with `t` standing for true -/
def encodeT (t : Byte) (m : Message) : Bytes := UInt8.ofNat (msgNum m) :: body t m

/-- the canonical encoding: true is 1 -/
def encode (m : Message) : Bytes := encodeT 1 m

/-- `b` is a legal encoding of `m`: RFC 4251 lets any non-zero byte stand for true -/
def Wire (m : Message) (b : Bytes) : Prop := ∃ t : Byte, t ≠ 0 ∧ b = encodeT t m

/-- names of the methods with their own variant -/
def knownMethods : List Bytes := [b! "none", b! "publickey", b! "password", b! "hostbased"]

def methodWF : Auth.Method → Prop
  | .none => True
  | .publicKeyBlob algorithm blob => Fits algorithm ∧ Fits blob
  | .publicKeySigned algorithm key signature => Fits algorithm ∧ Fits key ∧ Fits signature
  | .password password => Fits password
  | .passwordRenew old new => Fits old ∧ Fits new
  | .hostBased algorithm key host user signature =>
    Fits algorithm ∧ Fits key ∧ Fits host ∧ Fits user ∧ Fits signature ∧ Ascii host ∧ Utf8 user
  | .other method _ => Fits method ∧ method ∉ knownMethods

def nlWF (l : NameList) : Prop := Fits l.str ∧ NameListOk l.str

/-- Well-formed messages: every string fits its 32-bit length field, text fields satisfy the
invariant of their Rust type (`&str`, `AsciiStr`, `NameList`), arrays have their length, and a
value with a variant of its own is not spelled `Other`. -/
def WF : Message → Prop
  | .disconnect o => Fits o.description ∧ Fits o.language
  | .ignore o => Fits o.data
  | .unimplemented _ => True
  | .debug o => Fits o.message ∧ Fits o.language ∧ Utf8 o.message
  | .serviceRequest o => Fits o.serviceName
  | .serviceAccept o => Fits o.serviceName
  | .kexInit o =>
    o.cookie.length = 16 ∧ nlWF o.kexAlgorithms ∧ nlWF o.serverHostKeyAlgorithms
      ∧ nlWF o.encryptionAlgorithmsClientToServer ∧ nlWF o.encryptionAlgorithmsServerToClient
      ∧ nlWF o.macAlgorithmsClientToServer ∧ nlWF o.macAlgorithmsServerToClient
      ∧ nlWF o.compressionAlgorithmsClientToServer ∧ nlWF o.compressionAlgorithmsServerToClient
      ∧ nlWF o.languagesClientToServer ∧ nlWF o.languagesServerToClient
  | .newKeys => True
  | .kexEcdhInit o => Fits o.clientEphermalPublicKey
  | .kexEcdhReply o =>
    Fits (hostKey o.serverPublicKey) ∧ Fits o.serverEphermalPublicKey
      ∧ Fits (sigBlob o.exchangeHashSignature.name o.exchangeHashSignature.blob.r
          o.exchangeHashSignature.blob.s)
      ∧ (∃ n, MpintBody n o.exchangeHashSignature.blob.r)
      ∧ (∃ n, MpintBody n o.exchangeHashSignature.blob.s)
  | .userAuth (.request o) => Fits o.user ∧ Fits o.service ∧ methodWF o.method
  | .userAuth (.failure o) => nlWF o.alternativeMethods
  | .userAuth .success => True
  | .userAuth (.banner o) => Fits o.message ∧ Fits o.language
  | .userAuth (.publicKeyOk o) => Fits o.algorithm ∧ Fits o.blob
  | .channel (.open o) => Fits o.ty
  | .channel (.openConfirmation _) => True
  | .channel (.openFailure o) =>
    Fits o.description ∧ Fits o.language ∧ Utf8 o.description
      ∧ (∀ r, o.reason = .other r → r.toNat ∉ [1, 2, 3, 4])
  | .channel (.windowAdjust _) => True
  | .channel (.data o) => Fits o.data
  | .channel (.extendedData o) => Fits o.data
  | .channel (.eof _) => True
  | .channel (.close _) => True
  | .channel (.request o) => Fits o.ty
  | .channel (.success _) => True
  | .channel (.failure _) => True

/-- KEX_ECDH_REPLY, the one message the server sends and never needs to read -/
def isReply : Message → Bool
  | .kexEcdhReply _ => true
  | _ => false

/-- open-ended authentication method: the data of an unknown method is whatever is left -/
def methodOpen : Auth.Method → Bool
  | .other _ _ => true
  | _ => false

/-- messages whose last field takes whatever is left: the method-specific data of an unknown
authentication method, the type-specific data of OPEN_CONFIRMATION and of a channel request -/
def openEnded : Message → Bool
  | .userAuth (.request o) => methodOpen o.method
  | .channel (.openConfirmation _) => true
  | .channel (.request _) => true
  | _ => false

/-! ### session channel requests (RFC 4254 section 6) -/

/-- signal names of RFC 4254 section 6.9 -/
def signalTable : List (Signal × Bytes) :=
  [(.abort, b! "ABRT"), (.alarm, b! "ALRM"), (.floatingPointException, b! "FPE"),
   (.hangup, b! "HUP"), (.illegal, b! "ILL"), (.interrupt, b! "INT"), (.kill, b! "KILL"),
   (.pipe, b! "PIPE"), (.quit, b! "QUIT"), (.segmentationFault, b! "SEGV"),
   (.terminate, b! "TERM"), (.user1, b! "USR1"), (.user2, b! "USR2")]

/-- `n` is the name of signal `s` -/
def SignalName (s : Signal) (n : Bytes) : Prop :=
  (s, n) ∈ signalTable ∨ (s = .other n ∧ n ∉ signalTable.map Prod.snd)

instance (s : Signal) (n : Bytes) : Decidable (SignalName s n) :=
  inferInstanceAs (Decidable (_ ∨ (_ ∧ _)))

/-- `ty`, `data` are the request type and the type-specific data of a session request, with `t`
standing for true -/
inductive SessionWire (t : Byte) : SessionRequest → Bytes → Bytes → Prop
  | pty {term modes} {cw ch pw ph : UInt32} : Fits term → Fits modes →
    SessionWire t (.pty term cw ch pw ph modes) (b! "pty-req")
      (str term ++ u32 cw.toNat ++ u32 ch.toNat ++ u32 pw.toNat ++ u32 ph.toNat ++ str modes)
  | x11 {single proto cookie} {screen : UInt32} : Fits proto → Fits cookie →
    SessionWire t (.x11 single proto cookie screen) (b! "x11-req")
      (boolT t single ++ str proto ++ str cookie ++ u32 screen.toNat)
  | env {name value} : Fits name → Fits value →
    SessionWire t (.env name value) (b! "env") (str name ++ str value)
  | shell : SessionWire t .shell (b! "shell") []
  | exec {command} : Fits command → SessionWire t (.exec command) (b! "exec") (str command)
  | subsystem {name} : Fits name →
    SessionWire t (.subsystem name) (b! "subsystem") (str name)
  | windowChange {cw ch pw ph : UInt32} :
    SessionWire t (.windowChange cw ch pw ph) (b! "window-change")
      (u32 cw.toNat ++ u32 ch.toNat ++ u32 pw.toNat ++ u32 ph.toNat)
  | xonXoff {on} : SessionWire t (.xonXoff on) (b! "xon-xoff") (boolT t on)
  | signal {s n} : SignalName s n → Fits n →
    SessionWire t (.signal s) (b! "signal") (str n)
  | exitStatus {status : UInt32} :
    SessionWire t (.exitStatus status) (b! "exit-status") (u32 status.toNat)
  | exitSignal {s n core msg lang} : SignalName s n → Fits n → Fits msg → Fits lang → Utf8 msg →
    SessionWire t (.exitSignal s core msg lang) (b! "exit-signal")
      (str n ++ boolT t core ++ str msg ++ str lang)

/-- a well-formed signal: a known signal is not spelled `Other` -/
def SignalWF : Signal → Prop
  | .other n => Fits n ∧ n ∉ signalTable.map Prod.snd
  | _ => True

/-- a well-formed session request -/
def SessionWF : SessionRequest → Prop
  | .pty term _ _ _ _ modes => Fits term ∧ Fits modes
  | .x11 _ proto cookie _ => Fits proto ∧ Fits cookie
  | .env name value => Fits name ∧ Fits value
  | .shell => True
  | .exec command => Fits command
  | .subsystem name => Fits name
  | .windowChange _ _ _ _ => True
  | .xonXoff _ => True
  | .signal s => SignalWF s
  | .exitStatus _ => True
  | .exitSignal s _ msg lang => SignalWF s ∧ Fits msg ∧ Fits lang ∧ Utf8 msg

end Nora.Spec
