import Verif.Lemmas.Mpint
import Verif.Lemmas.Session
import Verif.Lemmas.Prefix
/-
C01-C12: the message layer.

`Spec.WF m`, `Spec.encode m`, `Spec.Wire m b`, `Spec.SessionWire` … are in `Verif.Spec.Wire` and do
not use any function of the model. `Message.parse`, `Message.serialize`, `SessionRequest.parse`, …
are the model of the code.
-/
namespace Nora
open R

/-! ### sample values used by the non-vacuity examples -/

/-- a channel request "exec" with reply, on channel 7 -/
def sampleExec : Message :=
  .channel (.request { recipientChannel := 7, ty := b! "exec", wantReply := true,
                       data := [0, 0, 0, 2, 108, 115] })

/-- a signed public key authentication request -/
def sampleAuth : Message :=
  .userAuth (.request { user := b! "nora", service := b! "ssh-connection",
                        method := .publicKeySigned (b! "ssh-ed25519") [1, 2, 3] [4, 5] })

def sampleReply : Message :=
  .kexEcdhReply { serverPublicKey := { name := b! "ecdsa-sha2-nistp256",
                                       blob := { identifier := b! "nistp256", q := [4, 1, 2] } },
                  serverEphermalPublicKey := [9, 9],
                  exchangeHashSignature := { name := b! "ecdsa-sha2-nistp256",
                                             blob := { r := [1], s := [0, 200] } } }

theorem sampleExec_wf : Spec.WF sampleExec := by unfold Spec.WF sampleExec; decide

theorem sampleAuth_wf : Spec.WF sampleAuth := by
  refine ⟨?_, ?_, ?_, ?_, ?_⟩ <;> decide

theorem sampleReply_wf : Spec.WF sampleReply := by
  refine ⟨by decide, by decide, by decide, ⟨1, ?_⟩, ⟨200, ?_⟩⟩
  · exact ⟨rfl, by decide, by simp, by decide⟩
  · refine ⟨rfl, by decide, ?_, by decide⟩
    intro a b t h _; cases h; decide

/-! ### C01 message round-trip -/

/-- C01, all messages except KEX_ECDH_REPLY: serialising a well-formed message into any buffer that
is long enough, whatever its content, and parsing what was written gives the same message.

The full statement drops the hypothesis `hm`; it is false of the code, see
`C01_ecdh_reply_refuted`. -/
theorem C01_roundtrip_partial (m : Message) (hm : Spec.isReply m = false) (h : Spec.WF m)
    (buf : Bytes) (hb : (Spec.encode m).length ≤ buf.length) :
    ∃ written rest, m.serialize buf = ok (written, rest) ∧ Message.parse written = ok m := by
  refine ⟨Spec.encode m, buf.drop (Spec.encode m).length, ?_, ?_⟩
  · rw [Message.serialize_eq_all h, if_pos hb]
  · exact (Message.parse_iff hm).mpr ⟨h, 1, by decide, rfl⟩

example : ∃ written rest, sampleExec.serialize (List.replicate 32 0xff) = ok (written, rest) ∧
    Message.parse written = ok sampleExec :=
  C01_roundtrip_partial sampleExec rfl sampleExec_wf _ (by decide)

/-- the round trip fails for KEX_ECDH_REPLY: no byte string parses to one (ecdh.rs:82 tests the
wrong variable), so in particular not what the serialiser wrote -/
theorem C01_ecdh_reply_refuted (m : Message) (hm : Spec.isReply m = true) (h : Spec.WF m)
    (buf : Bytes) (hb : (Spec.encode m).length ≤ buf.length) :
    ∃ written rest, m.serialize buf = ok (written, rest) ∧ Message.parse written ≠ ok m := by
  refine ⟨Spec.encode m, buf.drop (Spec.encode m).length, ?_, Message.parse_reply hm⟩
  rw [Message.serialize_eq_all h, if_pos hb]

example : ∃ written rest, sampleReply.serialize (List.replicate 96 0) = ok (written, rest) ∧
    Message.parse written ≠ ok sampleReply :=
  C01_ecdh_reply_refuted sampleReply rfl sampleReply_wf _ (by decide)

/-! ### C02 the parser accepts exactly the grammar -/

/-- C02, all messages except KEX_ECDH_REPLY. The full statement drops `hm`; it is false of the code,
see `C02_ecdh_reply_refuted`. -/
theorem C02_grammar_partial (m : Message) (hm : Spec.isReply m = false) (b : Bytes) :
    Message.parse b = ok m ↔ Spec.WF m ∧ Spec.Wire m b :=
  Message.parse_iff hm

example : Message.parse (98 :: [0, 0, 0, 7, 0, 0, 0, 4, 101, 120, 101, 99, 5,
    0, 0, 0, 2, 108, 115]) = ok sampleExec :=
  (C02_grammar_partial sampleExec rfl _).mpr ⟨sampleExec_wf, 5, by decide, by decide⟩

/-- a well-formed KEX_ECDH_REPLY on the wire is not accepted as itself; what the parser accepts is
always in the grammar -/
theorem C02_ecdh_reply_refuted (m : Message) (hm : Spec.isReply m = true) (b : Bytes) :
    ¬ Message.parse b = ok m := Message.parse_reply hm

example : ¬ Message.parse (Spec.encode sampleReply) = ok sampleReply :=
  C02_ecdh_reply_refuted sampleReply rfl _

/-- C02, soundness for every message: whatever the parser accepts is a legal encoding of a
well-formed message -/
theorem C02_sound (m : Message) (b : Bytes) (h : Message.parse b = ok m) :
    Spec.WF m ∧ Spec.Wire m b := by
  by_cases hm : Spec.isReply m = false
  · exact (Message.parse_iff hm).mp h
  · exact absurd h (Message.parse_reply (by simpa using hm))

/-! ### C03 no panic -/

/-- C03: parsing any bytes returns, it never panics -/
theorem C03_no_panic (b : Bytes) :
    (∃ m, Message.parse b = ok m) ∨ (∃ e, Message.parse b = err e) := by
  cases h : Message.parse b with
  | ok m => exact .inl ⟨m, rfl⟩
  | err e => exact .inr ⟨e, rfl⟩
  | panic => exact absurd h Message.parse_ne_panic

/-- C03 for channel session requests -/
theorem C03_no_panic_session (ty data : Bytes) :
    (∃ r, SessionRequest.parse ty data = ok r) ∨ (∃ e, SessionRequest.parse ty data = err e) := by
  cases h : SessionRequest.parse ty data with
  | ok m => exact .inl ⟨m, rfl⟩
  | err e => exact .inr ⟨e, rfl⟩
  | panic => exact absurd h SessionRequest.parse_ne_panic

/-! ### C04 the serialiser respects the buffer -/

/-- C04, every message including KEX_ECDH_REPLY: the written part is the encoding and the rest is
what was there; it fails (without panicking) exactly when the buffer is too short -/
theorem C04_buffer (m : Message) (h : Spec.WF m) (buf : Bytes) :
    (buf.length < (Spec.encode m).length ∧ m.serialize buf = err ()) ∨
    ((Spec.encode m).length ≤ buf.length ∧ ∃ rest, m.serialize buf = ok (Spec.encode m, rest) ∧
      ∃ old, buf = old ++ rest ∧ old.length = (Spec.encode m).length) := by
  rw [Message.serialize_eq_all h]
  by_cases hb : (Spec.encode m).length ≤ buf.length
  · right
    refine ⟨hb, buf.drop (Spec.encode m).length, by rw [if_pos hb], buf.take (Spec.encode m).length,
      by simp, by simp; omega⟩
  · left
    exact ⟨by omega, by rw [if_neg hb]⟩

example : sampleReply.serialize (List.replicate 40 0) = err () := by
  rcases C04_buffer sampleReply sampleReply_wf (List.replicate 40 0) with ⟨_, h⟩ | ⟨h, _⟩
  · exact h
  · exact absurd h (by decide)

/-! ### C05 encodings are unambiguous -/

/-- C05: two messages with a common encoding are equal. KEX_ECDH_REPLY is included: its injectivity
is proved of the specification itself. -/
theorem C05_injective (m m' : Message) (h : Spec.WF m) (h' : Spec.WF m') (b : Bytes)
    (hb : Spec.Wire m b) (hb' : Spec.Wire m' b) : m = m' := by
  have hn : Spec.msgNum m = Spec.msgNum m' := by
    obtain ⟨t, _, rfl⟩ := hb
    obtain ⟨t', _, he⟩ := hb'
    exact (encode_num (s := []) (s' := []) (by simpa using he)).1
  have h31 : ∀ x : Message, Spec.isReply x = true ↔ Spec.msgNum x = 31 := by
    intro x
    cases x with
    | userAuth u => cases u <;> simp [Spec.msgNum, Spec.isReply]
    | channel c => cases c <;> simp [Spec.msgNum, Spec.isReply]
    | _ => simp [Spec.msgNum, Spec.isReply]
  by_cases hm : Spec.isReply m = false
  · by_cases hm' : Spec.isReply m' = false
    · have e1 := (Message.parse_iff hm).mpr ⟨h, hb⟩
      have e2 := (Message.parse_iff hm').mpr ⟨h', hb'⟩
      rw [e1] at e2
      exact R.ok.inj e2
    · simp only [Bool.not_eq_false] at hm'
      have := (h31 m).mpr (hn.trans ((h31 m').mp hm'))
      simp [hm] at this
  · simp only [Bool.not_eq_false] at hm
    have hm' := (h31 m').mpr (hn.symm.trans ((h31 m).mp hm))
    cases m with
    | kexEcdhReply o =>
      cases m' with
      | kexEcdhReply o' =>
        obtain ⟨t, _, rfl⟩ := hb
        obtain ⟨t', _, he⟩ := hb'
        simp only [Spec.encodeT, Spec.body, List.cons.injEq, List.append_assoc] at he
        obtain ⟨f1, f2, f3, _⟩ := h
        obtain ⟨g1, g2, g3, _⟩ := h'
        obtain ⟨_, he⟩ := he
        have s1 := parseString_str_cons (r := Spec.str o.serverEphermalPublicKey ++
          Spec.str (Spec.sigBlob o.exchangeHashSignature.name o.exchangeHashSignature.blob.r
            o.exchangeHashSignature.blob.s)) f1
        rw [he, parseString_str_cons g1] at s1
        simp only [R.ok.injEq, Prod.mk.injEq] at s1
        obtain ⟨e1, e2⟩ := s1
        have s2 := parseString_str_cons (r := Spec.str (Spec.sigBlob o.exchangeHashSignature.name
          o.exchangeHashSignature.blob.r o.exchangeHashSignature.blob.s)) f2
        rw [← e2, parseString_str_cons g2] at s2
        simp only [R.ok.injEq, Prod.mk.injEq] at s2
        obtain ⟨e3, e4⟩ := s2
        have s3 := parseString_str_nil f3
        rw [← e4, parseString_str_nil g3] at s3
        simp only [R.ok.injEq, Prod.mk.injEq, and_true] at s3
        -- the host key
        have k1 : o.serverPublicKey = o'.serverPublicKey := by
          simp only [Spec.Fits, Spec.hostKey, List.length_append, str_length] at f1 g1
          have a1 : Spec.Fits o.serverPublicKey.name := by simp only [Spec.Fits]; omega
          have a2 : Spec.Fits o.serverPublicKey.blob.identifier := by simp only [Spec.Fits]; omega
          have a3 : Spec.Fits o.serverPublicKey.blob.q := by simp only [Spec.Fits]; omega
          have b1 : Spec.Fits o'.serverPublicKey.name := by simp only [Spec.Fits]; omega
          have b2 : Spec.Fits o'.serverPublicKey.blob.identifier := by simp only [Spec.Fits]; omega
          have b3 : Spec.Fits o'.serverPublicKey.blob.q := by simp only [Spec.Fits]; omega
          simp only [Spec.hostKey, List.append_assoc] at e1
          have t1 := congrArg parseString e1
          rw [parseString_str_cons a1, parseString_str_cons b1] at t1
          simp only [R.ok.injEq, Prod.mk.injEq] at t1
          have t2 := congrArg parseString t1.2
          rw [parseString_str_cons a2, parseString_str_cons b2] at t2
          simp only [R.ok.injEq, Prod.mk.injEq] at t2
          have t3 := congrArg parseString t2.2
          rw [parseString_str_nil a3, parseString_str_nil b3] at t3
          simp only [R.ok.injEq, Prod.mk.injEq, and_true] at t3
          cases hk : o.serverPublicKey with
          | mk n bl => cases hk' : o'.serverPublicKey with
            | mk n' bl' =>
              cases bl; cases bl'
              simp only [hk, hk'] at t1 t2 t3
              simp [t1.1, t2.1, t3]
        have k2 : o.exchangeHashSignature = o'.exchangeHashSignature := by
          simp only [Spec.Fits, Spec.sigBlob, List.length_append, str_length] at f3 g3
          have a1 : Spec.Fits o.exchangeHashSignature.name := by simp only [Spec.Fits]; omega
          have a2 : Spec.Fits o.exchangeHashSignature.blob.r := by simp only [Spec.Fits]; omega
          have a3 : Spec.Fits o.exchangeHashSignature.blob.s := by simp only [Spec.Fits]; omega
          have a4 : Spec.Fits (Spec.str o.exchangeHashSignature.blob.r ++
            Spec.str o.exchangeHashSignature.blob.s) := by
            simp only [Spec.Fits, List.length_append, str_length]; omega
          have b1 : Spec.Fits o'.exchangeHashSignature.name := by simp only [Spec.Fits]; omega
          have b2 : Spec.Fits o'.exchangeHashSignature.blob.r := by simp only [Spec.Fits]; omega
          have b3 : Spec.Fits o'.exchangeHashSignature.blob.s := by simp only [Spec.Fits]; omega
          have b4 : Spec.Fits (Spec.str o'.exchangeHashSignature.blob.r ++
            Spec.str o'.exchangeHashSignature.blob.s) := by
            simp only [Spec.Fits, List.length_append, str_length]; omega
          simp only [Spec.sigBlob] at s3
          have t1 := congrArg parseString s3
          rw [parseString_str_cons a1, parseString_str_cons b1] at t1
          simp only [R.ok.injEq, Prod.mk.injEq] at t1
          have t2 := congrArg parseString t1.2
          rw [parseString_str_nil a4, parseString_str_nil b4] at t2
          simp only [R.ok.injEq, Prod.mk.injEq, and_true] at t2
          have t3 := congrArg parseString t2
          rw [parseString_str_cons a2, parseString_str_cons b2] at t3
          simp only [R.ok.injEq, Prod.mk.injEq] at t3
          have t4 := congrArg parseString t3.2
          rw [parseString_str_nil a3, parseString_str_nil b3] at t4
          simp only [R.ok.injEq, Prod.mk.injEq, and_true] at t4
          cases hk : o.exchangeHashSignature with
          | mk n bl => cases hk' : o'.exchangeHashSignature with
            | mk n' bl' =>
              cases bl; cases bl'
              simp only [hk, hk'] at t1 t3 t4
              simp [t1.1, t3.1, t4]
        cases o; cases o'
        simp_all
      | _ => simp [Spec.isReply] at hm'
    | _ => simp [Spec.isReply] at hm

example : Spec.encode sampleExec ≠ Spec.encode sampleAuth := by
  intro h
  have := C05_injective sampleExec sampleAuth sampleExec_wf sampleAuth_wf (Spec.encode sampleExec)
    ⟨1, by decide, rfl⟩ ⟨1, by decide, h⟩
  exact absurd this (by decide)

/-- C05 for what the serialiser writes: two messages written as the same bytes, into whatever buffers,
are equal -/
theorem C05_written (m m' : Message) (h : Spec.WF m) (h' : Spec.WF m') (buf buf' w r r' : Bytes)
    (hs : m.serialize buf = ok (w, r)) (hs' : m'.serialize buf' = ok (w, r')) : m = m' := by
  have key : ∀ (x : Message) (b r : Bytes), Spec.WF x → x.serialize b = ok (w, r) →
      w = Spec.encode x := by
    intro x b r hx he
    rcases C04_buffer x hx b with ⟨_, e⟩ | ⟨_, r0, e, _⟩
    · rw [e] at he; cases he
    · rw [e] at he; injection he with he; injection he with he _; exact he.symm
  refine C05_injective m m' h h' w ⟨1, by decide, ?_⟩ ⟨1, by decide, ?_⟩
  · rw [key m buf r h hs]; rfl
  · rw [key m' buf' r' h' hs']; rfl

example : (Message.serviceRequest ⟨b! "x"⟩).serialize (List.replicate 8 0) =
      ok (5 :: Spec.str (b! "x"), [0, 0]) ∧
    (Message.serviceAccept ⟨b! "x"⟩).serialize (List.replicate 8 0) =
      ok (6 :: Spec.str (b! "x"), [0, 0]) := by decide +kernel

/-! ### C06 dispatch by message number -/

/-- message numbers of the SSH registry that the crate has a parser for (RFC 4250 section 4.1.2) -/
def assigned : List Nat :=
  [1, 2, 3, 4, 5, 6, 20, 21, 30, 31, 50, 51, 52, 53, 60, 90, 91, 92, 93, 94, 95, 96, 97, 98, 99, 100]

/-- C06: an accepted packet starts with the number of its variant -/
theorem C06_number (t : Byte) (rest : Bytes) (m : Message) (h : Message.parse (t :: rest) = ok m) :
    t.toNat = Spec.msgNum m := by
  obtain ⟨_, s, _, he⟩ := C02_sound m _ h
  have := (List.cons.inj he).1
  rw [this]
  cases m with
  | userAuth u => cases u <;> rfl
  | channel c => cases c <;> rfl
  | _ => rfl

/-- C06: an empty packet is rejected -/
theorem C06_empty : Message.parse [] = err .noMessageType := rfl

/-- the error for an unassigned number: RFC 4250 gives 50-79 to user authentication and 90-127 to
channels -/
def unassignedError (t : Byte) : MessageParseError :=
  if 50 ≤ t.toNat ∧ t.toNat ≤ 79 then .userAuth (.unknownMessageType t)
  else if 90 ≤ t.toNat ∧ t.toNat ≤ 127 then .channel (.unknownMessageType t)
  else .unknownMessageType t

/-- C06: every unassigned number is rejected, whatever follows, with an error naming it and the
protocol its range belongs to -/
theorem C06_unassigned (t : Byte) (rest : Bytes) (h : t.toNat ∉ assigned) :
    Message.parse (t :: rest) = err (unassignedError t) := by
  have ne : ∀ x : Byte, x.toNat ∈ assigned → t ≠ x := by
    rintro x hx rfl
    exact h hx
  have r1 : (50 ≤ t ∧ t ≤ 79) ↔ (50 ≤ t.toNat ∧ t.toNat ≤ 79) := by
    simp [UInt8.le_iff_toNat_le]
  have r2 : (90 ≤ t ∧ t ≤ 127) ↔ (90 ≤ t.toNat ∧ t.toNat ≤ 127) := by
    simp [UInt8.le_iff_toNat_le]
  rw [parse_cons, if_neg (ne 1 (by decide)), if_neg (ne 2 (by decide)),
    if_neg (ne 3 (by decide)), if_neg (ne 4 (by decide)),
    if_neg (ne 5 (by decide)), if_neg (ne 6 (by decide)),
    if_neg (ne 20 (by decide)), if_neg (ne 21 (by decide)),
    if_neg (ne 30 (by decide)), if_neg (ne 31 (by decide)), unassignedError]
  by_cases hu : 50 ≤ t ∧ t ≤ 79
  · rw [if_pos hu, if_pos (r1.mp hu), UserAuth.parse, if_neg (ne 50 (by decide)),
      if_neg (ne 51 (by decide)), if_neg (ne 52 (by decide)),
      if_neg (ne 53 (by decide)), if_neg (ne 60 (by decide))]
    rfl
  · rw [if_neg hu, if_neg (fun x => hu (r1.mpr x))]
    by_cases hc : 90 ≤ t ∧ t ≤ 127
    · rw [if_pos hc, if_pos (r2.mp hc), Channel.parse, if_neg (ne 90 (by decide)),
        if_neg (ne 91 (by decide)), if_neg (ne 92 (by decide)),
        if_neg (ne 93 (by decide)), if_neg (ne 94 (by decide)),
        if_neg (ne 95 (by decide)), if_neg (ne 96 (by decide)),
        if_neg (ne 97 (by decide)), if_neg (ne 98 (by decide)),
        if_neg (ne 99 (by decide)), if_neg (ne 100 (by decide))]
      rfl
    · rw [if_neg hc, if_neg (fun x => hc (r2.mpr x))]

example : Message.parse [54, 1, 2, 3] = err (.userAuth (.unknownMessageType 54)) :=
  C06_unassigned 54 [1, 2, 3] (by decide)

/-! ### C07 truncated and padded messages -/

/-- C07: cutting bytes off the end of a closed message, or adding bytes, makes it unacceptable -/
theorem C07_reject (m : Message) (h : Spec.WF m) (hc : Spec.openEnded m = false) (b : Bytes)
    (hb : Spec.Wire m b) :
    (∀ k, k < b.length → ∃ e, Message.parse (b.take k) = err e) ∧
    (∀ s, s ≠ [] → ∃ e, Message.parse (b ++ s) = err e) := by
  obtain ⟨t, ht, rfl⟩ := hb
  constructor
  · intro k hk
    rcases C03_no_panic ((Spec.encodeT t m).take k) with ⟨m', hm'⟩ | he
    · exfalso
      obtain ⟨w', t', ht', he⟩ := C02_sound m' _ hm'
      have := prefix_free (s := (Spec.encodeT t m).drop k) w' h (.inr hc) ht' ht
        (by rw [← he, List.take_append_drop])
      rw [List.drop_eq_nil_iff] at this
      omega
    · exact he
  · intro s hs
    rcases C03_no_panic (Spec.encodeT t m ++ s) with ⟨m', hm'⟩ | he
    · exfalso
      obtain ⟨w', t', ht', he⟩ := C02_sound m' _ hm'
      exact hs (prefix_free h w' (.inl hc) ht ht' he)
    · exact he

example : (∀ k, k < (Spec.encode sampleAuth).length →
      ∃ e, Message.parse ((Spec.encode sampleAuth).take k) = err e) ∧
    (∀ s, s ≠ [] → ∃ e, Message.parse (Spec.encode sampleAuth ++ s) = err e) :=
  C07_reject sampleAuth sampleAuth_wf rfl _ ⟨1, by decide, rfl⟩

/-! ### C08 session requests -/

/-- C08: every well-formed request has an RFC 4254 form, with either spelling of true -/
theorem C08_form (r : SessionRequest) (h : Spec.SessionWF r) (t : Byte) :
    ∃ ty data, Spec.SessionWire t r ty data := by
  have sig : ∀ s : Signal, Spec.SignalWF s → ∃ n, Spec.SignalName s n ∧ Spec.Fits n := by
    intro s hs
    cases s with
    | other n => exact ⟨n, .inr ⟨rfl, hs.2⟩, hs.1⟩
    | abort => exact ⟨b! "ABRT", .inl (by decide), by decide⟩
    | alarm => exact ⟨b! "ALRM", .inl (by decide), by decide⟩
    | floatingPointException => exact ⟨b! "FPE", .inl (by decide), by decide⟩
    | hangup => exact ⟨b! "HUP", .inl (by decide), by decide⟩
    | illegal => exact ⟨b! "ILL", .inl (by decide), by decide⟩
    | interrupt => exact ⟨b! "INT", .inl (by decide), by decide⟩
    | kill => exact ⟨b! "KILL", .inl (by decide), by decide⟩
    | pipe => exact ⟨b! "PIPE", .inl (by decide), by decide⟩
    | quit => exact ⟨b! "QUIT", .inl (by decide), by decide⟩
    | segmentationFault => exact ⟨b! "SEGV", .inl (by decide), by decide⟩
    | terminate => exact ⟨b! "TERM", .inl (by decide), by decide⟩
    | user1 => exact ⟨b! "USR1", .inl (by decide), by decide⟩
    | user2 => exact ⟨b! "USR2", .inl (by decide), by decide⟩
  cases r with
  | pty => exact ⟨_, _, .pty h.1 h.2⟩
  | x11 => exact ⟨_, _, .x11 h.1 h.2⟩
  | env => exact ⟨_, _, .env h.1 h.2⟩
  | shell => exact ⟨_, _, .shell⟩
  | exec => exact ⟨_, _, .exec h⟩
  | subsystem => exact ⟨_, _, .subsystem h⟩
  | windowChange => exact ⟨_, _, .windowChange⟩
  | xonXoff => exact ⟨_, _, .xonXoff⟩
  | signal s => obtain ⟨n, h1, h2⟩ := sig s h; exact ⟨_, _, .signal h1 h2⟩
  | exitStatus => exact ⟨_, _, .exitStatus⟩
  | exitSignal s _ _ _ =>
    obtain ⟨n, h1, h2⟩ := sig s h.1
    exact ⟨_, _, .exitSignal h1 h2 h.2.1 h.2.2.1 h.2.2.2⟩

/-- C08: serialising writes exactly the RFC 4254 type name and data, and fails exactly when the
data does not fit -/
theorem C08_serialize (r : SessionRequest) (ty data : Bytes) (h : Spec.SessionWire 1 r ty data)
    (buf : Bytes) :
    (data.length ≤ buf.length ∧
      r.serialize buf = ok (ty, data.length, data ++ buf.drop data.length)) ∨
    (buf.length < data.length ∧ r.serialize buf = err ()) := by
  rw [SessionRequest.serialize_eq h]
  by_cases hb : data.length ≤ buf.length
  · exact .inl ⟨hb, if_pos hb⟩
  · exact .inr ⟨by omega, if_neg hb⟩

/-- C08: parsing accepts exactly the pairs of this form -/
theorem C08_parse (ty data : Bytes) (r : SessionRequest) :
    SessionRequest.parse ty data = ok r ↔ ∃ t, t ≠ 0 ∧ Spec.SessionWire t r ty data :=
  SessionRequest.parse_iff

/-- C08: round trip -/
theorem C08_roundtrip (r : SessionRequest) (h : Spec.SessionWF r) :
    ∃ n, ∀ buf : Bytes, n ≤ buf.length → ∃ ty new, r.serialize buf = ok (ty, n, new) ∧
      new.length = buf.length ∧ SessionRequest.parse ty (new.take n) = ok r := by
  obtain ⟨ty, data, hw⟩ := C08_form r h 1
  refine ⟨data.length, fun buf hb => ⟨ty, data ++ buf.drop data.length, ?_, ?_, ?_⟩⟩
  · rw [SessionRequest.serialize_eq hw, if_pos hb]
  · simp; omega
  · rw [List.take_left]
    exact (C08_parse _ _ _).mpr ⟨1, by decide, hw⟩

example : Spec.SessionWF (.exitSignal .kill true (b! "core dumped") (b! "en")) := by
  refine ⟨trivial, by decide, by decide, ?_⟩
  exact ⟨[99, 111, 114, 101, 32, 100, 117, 109, 112, 101, 100], by decide, by decide⟩

example : SessionRequest.parse (b! "xon-xoff") [7] = ok (.xonXoff true) :=
  (C08_parse _ _ _).mpr ⟨7, by decide, .xonXoff⟩

example : SessionRequest.parse (b! "exec") [0, 0, 0, 3, 108, 115] = err .truncated := by decide

/-! ### C09 signal names -/

/-- C09: name → signal → name -/
theorem C09_name (n : Bytes) : (Signal.ofName n).name = n :=
  Signal.name_of_signalName ((Signal.ofName_iff n _).mp rfl)

/-- C09: signal → name → signal -/
theorem C09_signal (s : Signal) (h : Spec.SignalWF s) : Signal.ofName s.name = s := by
  cases s with
  | other n => exact (Signal.ofName_iff n _).mpr (.inr ⟨rfl, h.2⟩)
  | _ => rfl

/-- C09: the names are those of RFC 4254 section 6.9 -/
theorem C09_table (s : Signal) (n : Bytes) : Signal.ofName n = s ↔ Spec.SignalName s n :=
  Signal.ofName_iff n s

example : Signal.ofName (b! "SEGV") = .segmentationFault := (C09_table _ _).mpr (by decide)
example : Signal.ofName (b! "RTMIN") = .other (b! "RTMIN") := (C09_table _ _).mpr (by decide)

/-! ### C10 name-lists -/

/-- C10: acceptance -/
theorem C10_accept (s : Bytes) (l : NameList) :
    NameList.tryFrom s = ok l ↔ (∃ names, Spec.NameListOf names s) ∧ l.str = s := by
  rw [NameList.tryFrom_eq_ok]
  cases l
  simp [Spec.NameListOk]

/-- C10: iterating an accepted list gives exactly its names, and they join to the input -/
theorem C10_iter (s : Bytes) (l : NameList) (h : NameList.tryFrom s = ok l) :
    ∃ names, l.iter = ok names ∧ (∀ n ∈ names, Spec.Name n) ∧ Spec.joinComma names = s := by
  obtain ⟨⟨names, hn⟩, hl⟩ := (C10_accept s l).mp h
  exact ⟨names, NameList.iter_eq (hl ▸ hn), hn.1, hn.2.symm⟩

/-- C10: checking never panics -/
theorem C10_no_panic (s : Bytes) : NameList.tryFrom s ≠ panic := NameList.tryFrom_ne_panic

example : (⟨b! "a,bc"⟩ : NameList).iter = ok [b! "a", b! "bc"] :=
  NameList.iter_eq ⟨by decide, by decide⟩
example : NameList.tryFrom (b! "a,,b") = err .emptyName := by decide

/-! ### C11 mpint -/

/-- C11: `make_pos_mpint` writes the RFC 4251 mpint of the unsigned big-endian value of its input
(`Spec.MpintBody` determines it uniquely, `C11_unique`), if that has a 32-bit length at all, and
fails without panicking exactly when it does not fit the buffer -/
theorem C11_mpint (s : Bytes) (hs : ∀ body, Spec.MpintBody (Spec.beVal s) body → Spec.Fits body) :
    ∃ body, Spec.MpintBody (Spec.beVal s) body ∧ ∀ buf : Bytes,
      (4 + body.length ≤ buf.length ∧ makePosMpint buf s =
        ok (4 + body.length, Spec.str body ++ buf.drop (4 + body.length))) ∨
      (buf.length < 4 + body.length ∧ makePosMpint buf s = err ()) := by
  refine ⟨mpBody s, mpBody_spec s, fun buf => ?_⟩
  have hf := makePosMpint_fills (hs _ (mpBody_spec s)) buf
  simp only [str_length] at hf
  rw [hf]
  by_cases hb : 4 + (mpBody s).length ≤ buf.length
  · exact .inl ⟨hb, if_pos hb⟩
  · exact .inr ⟨by omega, if_neg hb⟩

/-- C11: a value has only one mpint; so leading zeros in the input make no difference -/
theorem C11_unique (n : Nat) (s t : Bytes) (hs : Spec.MpintBody n s) (ht : Spec.MpintBody n t) :
    s = t := mpintBody_unique hs ht

/-- C11: leading zeros in the input make no difference, whatever the buffer -/
theorem C11_leading_zeros (k : Nat) (s buf : Bytes) :
    makePosMpint buf (List.replicate k 0 ++ s) = makePosMpint buf s := by
  simp only [makePosMpint, stripZeros_prefix]

example : makePosMpint (List.replicate 8 7) [0, 0, 0x80] = ok (6, [0, 0, 0, 2, 0, 0x80, 7, 7]) := by
  decide

/-! ### C12 text -/

/-- C12: `from_utf8` accepts exactly UTF-8 -/
theorem C12_utf8 (s r : Bytes) : Utf8.fromUtf8 s = ok r ↔ Spec.Utf8 s ∧ r = s := fromUtf8_eq_ok

/-- C12: every ASCII string is UTF-8, so the `unwrap`s behind `is_ascii` do not fail -/
theorem C12_ascii (s : Bytes) (h : Spec.Ascii s) : Spec.Utf8 s ∧ Utf8.fromUtf8 s = ok s :=
  ⟨Utf8.valid_iff.mp (Utf8.valid_of_ascii h),
   fromUtf8_eq_ok.mpr ⟨Utf8.valid_iff.mp (Utf8.valid_of_ascii h), rfl⟩⟩

/-- C12: `AsciiStr::try_from` -/
theorem C12_asciiStr (s : Bytes) :
    (Spec.Ascii s ∧ AsciiStr.tryFrom s = ok s) ∨ (¬ Spec.Ascii s ∧ AsciiStr.tryFrom s = err ()) := by
  by_cases h : Spec.Ascii s
  · exact .inl ⟨h, AsciiStr.tryFrom_eq_ok.mpr ⟨h, rfl⟩⟩
  · refine .inr ⟨h, ?_⟩
    cases hs : AsciiStr.tryFrom s with
    | ok r => exact absurd (AsciiStr.tryFrom_eq_ok.mp hs).1 h
    | err e => rfl
    | panic => exact absurd hs AsciiStr.tryFrom_ne_panic

/-- C12: a DEBUG message is accepted iff its text is UTF-8 -/
theorem C12_debug (flag : Bool) (text lang : Bytes) (h1 : Spec.Fits text) (h2 : Spec.Fits lang) :
    (∃ m, Message.parse (4 :: (Spec.boolT 1 flag ++ Spec.str text ++ Spec.str lang)) = ok m) ↔
      Spec.Utf8 text := by
  constructor
  · rintro ⟨m, hm⟩
    have hn := C06_number _ _ _ hm
    obtain ⟨hw, t, ht, he⟩ := C02_sound _ _ hm
    cases m with
    | debug o =>
      simp only [Spec.encodeT, Spec.body, List.cons.injEq, List.append_assoc] at he
      obtain ⟨w1, w2, w3⟩ := hw
      have e1 := (boolT_app_inj (by decide) ht he.2).2
      have e2 := (str_app_inj h1 w1 e1).1
      exact e2 ▸ w3
    | userAuth u => cases u <;> exact absurd hn (by simp only [Spec.msgNum]; decide)
    | channel c => cases c <;> exact absurd hn (by simp only [Spec.msgNum]; decide)
    | _ => exact absurd hn (by simp only [Spec.msgNum]; decide)
  · intro h
    exact ⟨.debug { alwaysDisplay := flag, message := text, language := lang },
      (C02_grammar_partial _ rfl _).mpr ⟨⟨h1, h2, h⟩, 1, by decide, rfl⟩⟩

example : Spec.Utf8 [0xE2, 0x82, 0xAC] := ⟨[0x20AC], by decide, by decide⟩
example : ¬ Spec.Utf8 [0xC0, 0x80] := fun h => absurd (Utf8.valid_iff.mpr h) (by decide)

end Nora
