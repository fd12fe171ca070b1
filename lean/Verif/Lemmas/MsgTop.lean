import Verif.Lemmas.MsgParse
/-
The message parser as a whole: what it accepts, what it never does, and what serialising writes.
-/
set_option linter.unusedSimpArgs false

namespace Nora
open R

/-- case analysis on an `if` in an equation -/
theorem ite_or {α : Type} {c : Prop} [Decidable c] {a b x : α} (h : (if c then a else b) = x) :
    (c ∧ a = x) ∨ (¬c ∧ b = x) := by
  by_cases hc : c
  · rw [if_pos hc] at h; exact .inl ⟨hc, h⟩
  · rw [if_neg hc] at h; exact .inr ⟨hc, h⟩

/-! ### acceptance -/

theorem wire_iff_body {m : Message} {b : Bytes} :
    Spec.Wire m b ↔ ∃ r, b = UInt8.ofNat (Spec.msgNum m) :: r ∧ ∃ t : Byte, t ≠ 0 ∧ r = Spec.body t m := by
  constructor
  · rintro ⟨t, ht, rfl⟩; exact ⟨_, rfl, t, ht, rfl⟩
  · rintro ⟨r, rfl, t, ht, rfl⟩; exact ⟨t, ht, rfl⟩

theorem parse_cons (t : Byte) (rest : Bytes) : Message.parse (t :: rest) =
    if t = 1 then ((Msg.Disconnect.parse rest).map Message.disconnect).mapErr .disconnect
    else if t = 2 then ((Msg.Ignore.parse rest).map Message.ignore).mapErr .ignore
    else if t = 3 then
      ((Msg.Unimplemented.parse rest).map Message.unimplemented).mapErr .unimplemented
    else if t = 4 then ((Msg.Debug.parse rest).map Message.debug).mapErr .debug
    else if t = 5 then
      ((Msg.Service.parse rest).map Message.serviceRequest).mapErr .serviceRequest
    else if t = 6 then ((Msg.Service.parse rest).map Message.serviceAccept).mapErr .serviceAccept
    else if t = 20 then ((Kex.KexInit.parse rest).map Message.kexInit).mapErr .kexInit
    else if t = 21 then ((Kex.NewKeys.parse rest).map (fun _ => Message.newKeys)).mapErr .newKeys
    else if t = 30 then ((Kex.EcdhInit.parse rest).map Message.kexEcdhInit).mapErr .kexEcdhInit
    else if t = 31 then
      ((Kex.EcdhReply.parse rest).map Message.kexEcdhReply).mapErr .kexEcdhReply
    else if 50 ≤ t ∧ t ≤ 79 then ((UserAuth.parse t rest).map Message.userAuth).mapErr .userAuth
    else if 90 ≤ t ∧ t ≤ 127 then ((Channel.parse t rest).map Message.channel).mapErr .channel
    else .err (.unknownMessageType t) := by
  simp only [Message.parse, getAt, List.getElem?_cons_zero, ok_okOr, ok_bind, idxFrom,
    List.length_cons, Nat.le_add_left, if_true, List.drop_succ_cons, List.drop_zero]

/-- reading the type-specific parser: parser `p` accepts exactly the bodies of `mk o` -/
theorem parse_ok_iff_body {m : Message} {b : Bytes} (hm : Spec.isReply m = false) :
    Message.parse b = ok m ↔ ∃ r, b = UInt8.ofNat (Spec.msgNum m) :: r ∧
      Spec.WF m ∧ ∃ t : Byte, t ≠ 0 ∧ r = Spec.body t m := by
  have one : ((1 : Byte) ≠ 0) := by decide
  have ex : ∀ {p : Prop}, (∃ t : Byte, t ≠ 0 ∧ p) ↔ p :=
    ⟨fun ⟨_, _, h⟩ => h, fun h => ⟨1, by decide, h⟩⟩
  constructor
  · intro h
    cases b with
    | nil => simp [Message.parse, getAt] at h
    | cons t r =>
      rw [parse_cons] at h
      rcases ite_or h with ⟨h1, h⟩ | ⟨_, h⟩
      · simp only [mapErr_eq_ok, map_eq_ok, Msg.Disconnect.parse_iff] at h
        obtain ⟨o, ⟨w1, w2, rfl⟩, rfl⟩ := h
        exact ⟨_, congrArg (· :: _) h1, ⟨w1, w2⟩, 1, one, rfl⟩
      rcases ite_or h with ⟨h2, h⟩ | ⟨_, h⟩
      · simp only [mapErr_eq_ok, map_eq_ok, Msg.Ignore.parse_iff] at h
        obtain ⟨o, ⟨w1, rfl⟩, rfl⟩ := h
        exact ⟨_, congrArg (· :: _) h2, w1, 1, one, rfl⟩
      rcases ite_or h with ⟨h3, h⟩ | ⟨_, h⟩
      · simp only [mapErr_eq_ok, map_eq_ok, Msg.Unimplemented.parse_iff] at h
        obtain ⟨o, rfl, rfl⟩ := h
        exact ⟨_, congrArg (· :: _) h3, trivial, 1, one, rfl⟩
      rcases ite_or h with ⟨h4, h⟩ | ⟨_, h⟩
      · simp only [mapErr_eq_ok, map_eq_ok, Msg.Debug.parse_iff] at h
        obtain ⟨o, ⟨w1, t, ht, rfl⟩, rfl⟩ := h
        exact ⟨_, congrArg (· :: _) h4, w1, t, ht, rfl⟩
      rcases ite_or h with ⟨h5, h⟩ | ⟨_, h⟩
      · simp only [mapErr_eq_ok, map_eq_ok, Msg.Service.parse_iff] at h
        obtain ⟨o, ⟨w1, rfl⟩, rfl⟩ := h
        exact ⟨_, congrArg (· :: _) h5, w1, 1, one, rfl⟩
      rcases ite_or h with ⟨h6, h⟩ | ⟨_, h⟩
      · simp only [mapErr_eq_ok, map_eq_ok, Msg.Service.parse_iff] at h
        obtain ⟨o, ⟨w1, rfl⟩, rfl⟩ := h
        exact ⟨_, congrArg (· :: _) h6, w1, 1, one, rfl⟩
      rcases ite_or h with ⟨h7, h⟩ | ⟨_, h⟩
      · simp only [mapErr_eq_ok, map_eq_ok, Kex.KexInit.parse_iff] at h
        obtain ⟨o, ⟨w1, t, ht, rfl⟩, rfl⟩ := h
        exact ⟨_, congrArg (· :: _) h7, w1, t, ht, rfl⟩
      rcases ite_or h with ⟨h8, h⟩ | ⟨_, h⟩
      · simp only [mapErr_eq_ok, map_eq_ok, Kex.NewKeys.parse_iff] at h
        obtain ⟨o, rfl, rfl⟩ := h
        exact ⟨_, congrArg (· :: _) h8, trivial, 1, one, rfl⟩
      rcases ite_or h with ⟨h9, h⟩ | ⟨_, h⟩
      · simp only [mapErr_eq_ok, map_eq_ok, Kex.EcdhInit.parse_iff] at h
        obtain ⟨o, ⟨w1, rfl⟩, rfl⟩ := h
        exact ⟨_, congrArg (· :: _) h9, w1, 1, one, rfl⟩
      rcases ite_or h with ⟨h10, h⟩ | ⟨_, h⟩
      · simp only [mapErr_eq_ok, map_eq_ok] at h
        obtain ⟨o, ho, rfl⟩ := h
        exact absurd ho Kex.EcdhReply.parse_ne_ok
      rcases ite_or h with ⟨h11, h⟩ | ⟨_, h⟩
      · simp only [mapErr_eq_ok, map_eq_ok] at h
        obtain ⟨u, hu, rfl⟩ := h
        unfold UserAuth.parse at hu
        rcases ite_or hu with ⟨g1, hu⟩ | ⟨_, hu⟩
        · simp only [mapErr_eq_ok, map_eq_ok, Auth.Request.parse_iff] at hu
          obtain ⟨o, ⟨w1, t, ht, rfl⟩, rfl⟩ := hu
          exact ⟨_, congrArg (· :: _) g1, w1, t, ht, rfl⟩
        rcases ite_or hu with ⟨g2, hu⟩ | ⟨_, hu⟩
        · simp only [mapErr_eq_ok, map_eq_ok, Auth.Failure.parse_iff] at hu
          obtain ⟨o, ⟨w1, t, ht, rfl⟩, rfl⟩ := hu
          exact ⟨_, congrArg (· :: _) g2, w1, t, ht, rfl⟩
        rcases ite_or hu with ⟨g3, hu⟩ | ⟨_, hu⟩
        · simp only [mapErr_eq_ok, map_eq_ok, Auth.Success.parse_iff] at hu
          obtain ⟨o, rfl, rfl⟩ := hu
          exact ⟨_, congrArg (· :: _) g3, trivial, 1, one, rfl⟩
        rcases ite_or hu with ⟨g4, hu⟩ | ⟨_, hu⟩
        · simp only [mapErr_eq_ok, map_eq_ok, Auth.Banner.parse_iff] at hu
          obtain ⟨o, ⟨w1, rfl⟩, rfl⟩ := hu
          exact ⟨_, congrArg (· :: _) g4, w1, 1, one, rfl⟩
        rcases ite_or hu with ⟨g5, hu⟩ | ⟨_, hu⟩
        · simp only [mapErr_eq_ok, map_eq_ok, Auth.PublicKeyOk.parse_iff] at hu
          obtain ⟨o, ⟨w1, rfl⟩, rfl⟩ := hu
          exact ⟨_, congrArg (· :: _) g5, w1, 1, one, rfl⟩
        cases hu
      rcases ite_or h with ⟨h12, h⟩ | ⟨_, h⟩
      · simp only [mapErr_eq_ok, map_eq_ok] at h
        obtain ⟨u, hu, rfl⟩ := h
        unfold Channel.parse at hu
        rcases ite_or hu with ⟨g1, hu⟩ | ⟨_, hu⟩
        · simp only [mapErr_eq_ok, map_eq_ok, Chan.Open.parse_iff] at hu
          obtain ⟨o, ⟨w1, rfl⟩, rfl⟩ := hu
          exact ⟨_, congrArg (· :: _) g1, w1, 1, one, rfl⟩
        rcases ite_or hu with ⟨g2, hu⟩ | ⟨_, hu⟩
        · simp only [mapErr_eq_ok, map_eq_ok, Chan.OpenConfirmation.parse_iff] at hu
          obtain ⟨o, rfl, rfl⟩ := hu
          exact ⟨_, congrArg (· :: _) g2, trivial, 1, one, rfl⟩
        rcases ite_or hu with ⟨g3, hu⟩ | ⟨_, hu⟩
        · simp only [mapErr_eq_ok, map_eq_ok, Chan.OpenFailure.parse_iff] at hu
          obtain ⟨o, ⟨w1, rfl⟩, rfl⟩ := hu
          exact ⟨_, congrArg (· :: _) g3, w1, 1, one, rfl⟩
        rcases ite_or hu with ⟨g4, hu⟩ | ⟨_, hu⟩
        · simp only [mapErr_eq_ok, map_eq_ok, Chan.WindowAdjust.parse_iff] at hu
          obtain ⟨o, rfl, rfl⟩ := hu
          exact ⟨_, congrArg (· :: _) g4, trivial, 1, one, rfl⟩
        rcases ite_or hu with ⟨g5, hu⟩ | ⟨_, hu⟩
        · simp only [mapErr_eq_ok, map_eq_ok, Chan.Data.parse_iff] at hu
          obtain ⟨o, ⟨w1, rfl⟩, rfl⟩ := hu
          exact ⟨_, congrArg (· :: _) g5, w1, 1, one, rfl⟩
        rcases ite_or hu with ⟨g6, hu⟩ | ⟨_, hu⟩
        · simp only [mapErr_eq_ok, map_eq_ok, Chan.ExtendedData.parse_iff] at hu
          obtain ⟨o, ⟨w1, rfl⟩, rfl⟩ := hu
          exact ⟨_, congrArg (· :: _) g6, w1, 1, one, rfl⟩
        rcases ite_or hu with ⟨g7, hu⟩ | ⟨_, hu⟩
        · simp only [mapErr_eq_ok, map_eq_ok, Chan.ChanOnly.parse_iff] at hu
          obtain ⟨o, rfl, rfl⟩ := hu
          exact ⟨_, congrArg (· :: _) g7, trivial, 1, one, rfl⟩
        rcases ite_or hu with ⟨g8, hu⟩ | ⟨_, hu⟩
        · simp only [mapErr_eq_ok, map_eq_ok, Chan.ChanOnly.parse_iff] at hu
          obtain ⟨o, rfl, rfl⟩ := hu
          exact ⟨_, congrArg (· :: _) g8, trivial, 1, one, rfl⟩
        rcases ite_or hu with ⟨g9, hu⟩ | ⟨_, hu⟩
        · simp only [mapErr_eq_ok, map_eq_ok, Chan.Request.parse_iff] at hu
          obtain ⟨o, ⟨w1, t, ht, rfl⟩, rfl⟩ := hu
          exact ⟨_, congrArg (· :: _) g9, w1, t, ht, rfl⟩
        rcases ite_or hu with ⟨g10, hu⟩ | ⟨_, hu⟩
        · simp only [mapErr_eq_ok, map_eq_ok, Chan.ChanOnly.parse_iff] at hu
          obtain ⟨o, rfl, rfl⟩ := hu
          exact ⟨_, congrArg (· :: _) g10, trivial, 1, one, rfl⟩
        rcases ite_or hu with ⟨g11, hu⟩ | ⟨_, hu⟩
        · simp only [mapErr_eq_ok, map_eq_ok, Chan.ChanOnly.parse_iff] at hu
          obtain ⟨o, rfl, rfl⟩ := hu
          exact ⟨_, congrArg (· :: _) g11, trivial, 1, one, rfl⟩
        cases hu
      cases h
  · rintro ⟨r, rfl, hwf, t, ht, hr⟩
    rw [parse_cons]
    cases m with
    | disconnect o =>
      simp [Spec.msgNum]
      exact Msg.Disconnect.parse_iff.mpr ⟨hwf.1, hwf.2, hr⟩
    | ignore o =>
      simp [Spec.msgNum]
      exact Msg.Ignore.parse_iff.mpr ⟨hwf, hr⟩
    | unimplemented o =>
      simp [Spec.msgNum]
      exact Msg.Unimplemented.parse_iff.mpr hr
    | debug o =>
      simp [Spec.msgNum]
      exact Msg.Debug.parse_iff.mpr ⟨hwf, t, ht, hr⟩
    | serviceRequest o =>
      simp [Spec.msgNum]
      exact Msg.Service.parse_iff.mpr ⟨hwf, hr⟩
    | serviceAccept o =>
      simp [Spec.msgNum]
      exact Msg.Service.parse_iff.mpr ⟨hwf, hr⟩
    | kexInit o =>
      simp [Spec.msgNum]
      exact Kex.KexInit.parse_iff.mpr ⟨hwf, t, ht, hr⟩
    | newKeys =>
      simp [Spec.msgNum]
      exact ⟨(), Kex.NewKeys.parse_iff.mpr hr⟩
    | kexEcdhInit o =>
      simp [Spec.msgNum]
      exact Kex.EcdhInit.parse_iff.mpr ⟨hwf, hr⟩
    | kexEcdhReply o => simp [Spec.isReply] at hm
    | userAuth u =>
      cases u with
      | request o =>
        simp [Spec.msgNum, UserAuth.parse]
        exact Auth.Request.parse_iff.mpr ⟨hwf, t, ht, hr⟩
      | failure o =>
        simp [Spec.msgNum, UserAuth.parse]
        exact Auth.Failure.parse_iff.mpr ⟨hwf, t, ht, hr⟩
      | success =>
        simp [Spec.msgNum, UserAuth.parse]
        exact ⟨(), Auth.Success.parse_iff.mpr hr⟩
      | banner o =>
        simp [Spec.msgNum, UserAuth.parse]
        exact Auth.Banner.parse_iff.mpr ⟨hwf, hr⟩
      | publicKeyOk o =>
        simp [Spec.msgNum, UserAuth.parse]
        exact Auth.PublicKeyOk.parse_iff.mpr ⟨hwf, hr⟩
    | channel c =>
      cases c with
      | «open» o =>
        simp [Spec.msgNum, Channel.parse]
        exact Chan.Open.parse_iff.mpr ⟨hwf, hr⟩
      | openConfirmation o =>
        simp [Spec.msgNum, Channel.parse]
        exact Chan.OpenConfirmation.parse_iff.mpr hr
      | openFailure o =>
        simp [Spec.msgNum, Channel.parse]
        exact Chan.OpenFailure.parse_iff.mpr ⟨hwf, hr⟩
      | windowAdjust o =>
        simp [Spec.msgNum, Channel.parse]
        exact Chan.WindowAdjust.parse_iff.mpr hr
      | data o =>
        simp [Spec.msgNum, Channel.parse]
        exact Chan.Data.parse_iff.mpr ⟨hwf, hr⟩
      | extendedData o =>
        simp [Spec.msgNum, Channel.parse]
        exact Chan.ExtendedData.parse_iff.mpr ⟨hwf, hr⟩
      | eof o =>
        simp [Spec.msgNum, Channel.parse]
        exact Chan.ChanOnly.parse_iff.mpr hr
      | close o =>
        simp [Spec.msgNum, Channel.parse]
        exact Chan.ChanOnly.parse_iff.mpr hr
      | request o =>
        simp [Spec.msgNum, Channel.parse]
        exact Chan.Request.parse_iff.mpr ⟨hwf, t, ht, hr⟩
      | success o =>
        simp [Spec.msgNum, Channel.parse]
        exact Chan.ChanOnly.parse_iff.mpr hr
      | failure o =>
        simp [Spec.msgNum, Channel.parse]
        exact Chan.ChanOnly.parse_iff.mpr hr

/-- the parser accepts exactly the grammar, KEX_ECDH_REPLY aside -/
theorem Message.parse_iff {m : Message} {b : Bytes} (hm : Spec.isReply m = false) :
    Message.parse b = ok m ↔ Spec.WF m ∧ Spec.Wire m b := by
  rw [parse_ok_iff_body hm, wire_iff_body]
  constructor
  · rintro ⟨r, h1, h2, h3⟩; exact ⟨h2, r, h1, h3⟩
  · rintro ⟨h2, r, h1, h3⟩; exact ⟨r, h1, h2, h3⟩

/-- KEX_ECDH_REPLY is never accepted -/
theorem Message.parse_reply {m : Message} {b : Bytes} (hm : Spec.isReply m = true) :
    Message.parse b ≠ ok m := by
  intro h
  cases b with
  | nil => simp [Message.parse, getAt] at h
  | cons t r =>
    cases m with
    | kexEcdhReply o =>
      rw [parse_cons] at h
      iterate 12
        rcases ite_or h with ⟨_, h⟩ | ⟨_, h⟩
        · simp [Kex.EcdhReply.parse_ne_ok] at h
      cases h
    | _ => simp [Spec.isReply] at hm

/-! ### no panics -/

theorem Msg.Disconnect.parse_ne_panic {b : Bytes} : Msg.Disconnect.parse b ≠ panic := by
  intro h
  simp only [Msg.Disconnect.parse, bind_eq_panic, okOr_eq_panic, getTo_ne_panic, false_or,
    okOr_eq_ok, getTo_eq_ok, parseString_ne_panic, idxFrom] at h
  obtain ⟨x, ⟨h4, rfl⟩, h⟩ := h
  rw [if_pos h4] at h
  simp only [reduceCtorEq, false_or] at h
  obtain ⟨_, _, _, _, _, _, h⟩ := h
  split_ifs at h
  simp only [bind_eq_panic, u32FromBe_eq_panic, reduceCtorEq, and_false, exists_false, or_false,
    List.length_take] at h
  omega

theorem Msg.Debug.parse_ne_panic {b : Bytes} : Msg.Debug.parse b ≠ panic := by
  simp [Msg.Debug.parse, parseBool_ne_panic, parseString_ne_panic, fromUtf8_ne_panic]

theorem nameListE_ne_panic {b : Bytes} : Kex.KexInit.nameListE b ≠ panic := by
  intro h
  simp only [Kex.KexInit.nameListE, nameList, bind_eq_panic, okOr_eq_panic, parseString_ne_panic,
    false_or, bind_eq_ok, okOr_eq_ok, mapErr_eq_panic, reduceCtorEq, and_false, exists_false,
    or_false, R.ok.injEq] at h
  obtain ⟨a, ⟨p, _, rfl⟩, h⟩ := h
  exact NameList.tryFrom_ne_panic h

theorem Kex.KexInit.parse_ne_panic {b : Bytes} : Kex.KexInit.parse b ≠ panic := by
  intro h
  simp only [Kex.KexInit.parse, bind_eq_panic, okOr_eq_panic, nameListE_ne_panic, split_ne_panic,
    false_or, okOr_eq_ok, Prod.exists, split_eq_ok, guardE_ne_panic, reduceCtorEq, and_false,
    exists_false, or_false, guardE_eq_ok] at h
  obtain ⟨c, r, ⟨hc, _⟩, _, _, _, _, _, _, _, _, _, _, _, _, _, _, _, _, _, _, _, _, 
    _, _, _, _, _, _, _, _, _, _, f, _, ⟨hf, _⟩, _, _, _, _, _, _, _, h⟩ := h
  rcases h with h | ⟨_, _, h⟩
  · rw [assertP, if_pos (by simp [hc])] at h; cases h
  · match f, hf with
    | [a], _ => simp [idxAt] at h

theorem Kex.EcdhReply.parse_ne_panic {b : Bytes} : Kex.EcdhReply.parse b ≠ panic := by
  simp [Kex.EcdhReply.parse, Kex.Key.parse, Kex.KeyBlob.parse, Kex.Signature.parse,
    Kex.SignatureBlob.parse, parseString_ne_panic]

theorem Auth.Request.parse_ne_panic {b : Bytes} : Auth.Request.parse b ≠ panic := by
  intro h
  simp only [Auth.Request.parse, bind_eq_panic, okOr_eq_panic, parseString_ne_panic, false_or,
    reduceCtorEq, and_false, exists_false, or_false] at h
  obtain ⟨_, _, _, _, _, _, h⟩ := h
  split_ifs at h <;>
    simp only [bind_eq_panic, okOr_eq_panic, parseString_ne_panic, false_or, guardE_ne_panic,
      reduceCtorEq, and_false, exists_false, or_false, splitFirst_ne_panic] at h
  · obtain ⟨_, _, h⟩ := h
    split_ifs at h <;>
      simp [parseString_ne_panic] at h
  · obtain ⟨_, _, h⟩ := h
    split_ifs at h <;>
      simp [parseString_ne_panic] at h
  · simp [AsciiStr.tryFrom_ne_panic, fromUtf8_ne_panic] at h

theorem Auth.Failure.parse_ne_panic {b : Bytes} : Auth.Failure.parse b ≠ panic := by
  intro h
  simp only [Auth.Failure.parse, bind_eq_panic, okOr_eq_panic, parseString_ne_panic, false_or] at h
  obtain ⟨_, _, h⟩ := h
  split at h
  · cases h
  · simp [NameList.tryFrom_ne_panic] at h
  · cases h

theorem Chan.Open.parse_ne_panic {b : Bytes} : Chan.Open.parse b ≠ panic := by
  intro h
  simp only [Chan.Open.parse, bind_eq_panic, okOr_eq_panic, parseString_ne_panic, false_or] at h
  obtain ⟨⟨s, r⟩, _, h⟩ := h
  split_ifs at h with h1 h2
  have hr : r.length = 12 := by simp at h1 h2; omega
  simp only [idxTo, idxFrom, idxRange, hr] at h
  rw [if_pos (by omega), if_pos (by omega), if_pos (by omega)] at h
  simp [u32FromBe_eq_panic, hr] at h

theorem Chan.OpenConfirmation.parse_ne_panic {b : Bytes} :
    Chan.OpenConfirmation.parse b ≠ panic := by
  intro h
  unfold Chan.OpenConfirmation.parse at h
  split_ifs at h with h1
  simp only [idxTo, idxFrom, idxRange] at h
  rw [if_pos (by omega), if_pos (by omega), if_pos (by omega), if_pos (by omega),
    if_pos (by omega)] at h
  simp [u32FromBe_eq_panic] at h
  omega

theorem Chan.Request.parse_ne_panic {b : Bytes} : Chan.Request.parse b ≠ panic := by
  intro h
  simp only [Chan.Request.parse, bind_eq_panic, okOr_eq_panic, getTo_ne_panic, false_or,
    okOr_eq_ok, getTo_eq_ok, parseString_ne_panic, idxFrom, getAt_ne_panic, reduceCtorEq,
    and_false, exists_false, or_false, u32FromBe_eq_panic] at h
  obtain ⟨x, ⟨h4, rfl⟩, h | h⟩ := h
  · simp at h; omega
  · obtain ⟨_, _, h⟩ := h
    rw [if_pos h4] at h
    simp only [reduceCtorEq, false_or, R.ok.injEq] at h
    obtain ⟨_, rfl, ⟨s, r⟩, _, w, hw, h⟩ := h
    cases r with
    | nil => simp [getAt] at hw
    | cons a r => simp at h

theorem Chan.ChanOnly.parse_ne_panic {b : Bytes} : Chan.ChanOnly.parse b ≠ panic := by
  unfold Chan.ChanOnly.parse
  split_ifs with h
  · simp [u32FromBe_eq_panic, h]
  · simp

theorem Chan.OpenFailure.parse_ne_panic {b : Bytes} : Chan.OpenFailure.parse b ≠ panic := by
  simp [Chan.OpenFailure.parse, parseString_ne_panic, parseUint32_ne_panic, fromUtf8_ne_panic]

theorem Chan.WindowAdjust.parse_ne_panic {b : Bytes} : Chan.WindowAdjust.parse b ≠ panic := by
  simp [Chan.WindowAdjust.parse, parseString_ne_panic, parseUint32_ne_panic]

theorem Chan.Data.parse_ne_panic {b : Bytes} : Chan.Data.parse b ≠ panic := by
  simp [Chan.Data.parse, parseString_ne_panic, parseUint32_ne_panic]

theorem Chan.ExtendedData.parse_ne_panic {b : Bytes} : Chan.ExtendedData.parse b ≠ panic := by
  simp [Chan.ExtendedData.parse, parseString_ne_panic, parseUint32_ne_panic]

theorem UserAuth.parse_ne_panic {t : Byte} {b : Bytes} : UserAuth.parse t b ≠ panic := by
  intro h
  unfold UserAuth.parse at h
  iterate 5
    rcases ite_or h with ⟨_, h⟩ | ⟨_, h⟩
    · simp [Auth.Request.parse_ne_panic, Auth.Failure.parse_ne_panic, Auth.Success.parse,
        Auth.Banner.parse, Auth.PublicKeyOk.parse, parseString_ne_panic] at h
  cases h

theorem Channel.parse_ne_panic {t : Byte} {b : Bytes} : Channel.parse t b ≠ panic := by
  intro h
  unfold Channel.parse at h
  iterate 11
    rcases ite_or h with ⟨_, h⟩ | ⟨_, h⟩
    · simp [Chan.Open.parse_ne_panic, Chan.OpenConfirmation.parse_ne_panic,
        Chan.OpenFailure.parse_ne_panic, Chan.WindowAdjust.parse_ne_panic,
        Chan.Data.parse_ne_panic, Chan.ExtendedData.parse_ne_panic,
        Chan.Request.parse_ne_panic, Chan.ChanOnly.parse_ne_panic] at h
  cases h

theorem Message.parse_ne_panic {b : Bytes} : Message.parse b ≠ panic := by
  intro h
  cases b with
  | nil => simp [Message.parse, getAt] at h
  | cons t r =>
    rw [parse_cons] at h
    iterate 12
      rcases ite_or h with ⟨_, h⟩ | ⟨_, h⟩
      · simp [Msg.Disconnect.parse_ne_panic, Msg.Ignore.parse, Msg.Unimplemented.parse,
          Msg.Debug.parse_ne_panic, Msg.Service.parse, Kex.KexInit.parse_ne_panic,
          Kex.NewKeys.parse, Kex.EcdhInit.parse, Kex.EcdhReply.parse_ne_panic,
          UserAuth.parse_ne_panic, Channel.parse_ne_panic, parseString_ne_panic,
          parseUint32_ne_panic] at h
    cases h

end Nora
