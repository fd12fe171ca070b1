import Verif.Lemmas.Data
import Verif.Lemmas.Text
/-
What each message parser accepts.
-/
set_option linter.unusedSimpArgs false
set_option linter.unusedVariables false

namespace Nora
open R

theorem parseString_str_nil {s : Bytes} (h : Spec.Fits s) :
    parseString (Spec.str s) = ok (s, []) := parseString_eq_ok.mpr ⟨h, by simp⟩

theorem parseUint32_u32 {v : UInt32} {r : Bytes} :
    parseUint32 (Spec.u32 v.toNat ++ r) = ok (v, r) := parseUint32_eq_ok.mpr rfl

theorem parseUint32_u32_nil {v : UInt32} :
    parseUint32 (Spec.u32 v.toNat) = ok (v, []) := parseUint32_eq_ok.mpr (by simp)

theorem parseString_str_cons {s r : Bytes} (h : Spec.Fits s) :
    parseString (Spec.str s ++ r) = ok (s, r) := parseString_eq_ok.mpr ⟨h, rfl⟩

theorem guardE_nil {ε : Type} {e : ε} : guardE ([] : Bytes).isEmpty e = ok () := rfl

theorem bool_eq_of_byte (a : Byte) : ∃ t : Byte, t ≠ 0 ∧ [a] = Spec.boolT t (a != 0) := by
  by_cases h : a = 0
  · exact ⟨1, by decide, by simp [Spec.boolT, h]⟩
  · exact ⟨a, h, by simp [Spec.boolT, h]⟩

theorem parseBool_boolT {t : Byte} {v : Bool} {r : Bytes} (h : t ≠ 0) :
    parseBool (Spec.boolT t v ++ r) = ok (v, r) := by
  rw [parseBool_eq_ok]
  refine ⟨if v then t else 0, rfl, ?_⟩
  cases v <;> simp [h]

theorem Msg.Disconnect.parse_iff {b : Bytes} {o : Msg.Disconnect} :
    Msg.Disconnect.parse b = ok o ↔ Spec.Fits o.description ∧ Spec.Fits o.language ∧
      b = Spec.u32 o.reason.toNat ++ Spec.str o.description ++ Spec.str o.language := by
  unfold Msg.Disconnect.parse
  constructor
  · intro h
    simp only [bind_eq_ok, okOr_eq_ok, getTo_eq_ok, Prod.exists, parseString_eq_ok] at h
    obtain ⟨x, ⟨h4, rfl⟩, y, hy, d, r, ⟨hd, rfl⟩, l, r2, ⟨hl, rfl⟩, h⟩ := h
    unfold idxFrom at hy
    split_ifs at hy
    split_ifs at h with h3
    simp only [bind_eq_ok, u32FromBe_eq_ok, R.ok.injEq] at h hy
    obtain ⟨v, hv, rfl⟩ := h
    refine ⟨hd, hl, ?_⟩
    rw [append_of_take hv, hy]
    have : r2 = [] := by
      simpa using h3
    simp [this]
  · rintro ⟨h1, h2, rfl⟩
    have : getTo (Spec.u32 o.reason.toNat ++ Spec.str o.description ++ Spec.str o.language) 4
        = ok (Spec.u32 o.reason.toNat) := by
      rw [getTo_eq_ok]; simp [Spec.u32]
    rw [this]
    have e : (Spec.u32 o.reason.toNat ++ Spec.str o.description ++ Spec.str o.language).drop 4
        = Spec.str o.description ++ Spec.str o.language := rfl
    simp only [ok_okOr, ok_bind, idxFrom, e, parseString_str_cons h1, parseString_str_nil h2]
    rw [if_pos (by simp)]
    simp [parseString_str_cons h1, parseString_str_nil h2]

theorem Msg.Ignore.parse_iff {b : Bytes} {o : Msg.Ignore} :
    Msg.Ignore.parse b = ok o ↔ Spec.Fits o.data ∧ b = Spec.str o.data := by
  unfold Msg.Ignore.parse
  constructor
  · intro h
    simp only [bind_eq_ok, okOr_eq_ok, Prod.exists, parseString_eq_ok, guardE_eq_ok,
      List.isEmpty_iff] at h
    obtain ⟨d, r, ⟨hd, rfl⟩, _, rfl, h⟩ := h
    cases h
    simp [hd]
  · rintro ⟨h1, rfl⟩
    simp [parseString_str_nil h1, guardE_nil]

theorem Msg.Unimplemented.parse_iff {b : Bytes} {o : Msg.Unimplemented} :
    Msg.Unimplemented.parse b = ok o ↔ b = Spec.u32 o.sequenceNumber.toNat := by
  unfold Msg.Unimplemented.parse
  constructor
  · intro h
    simp only [bind_eq_ok, okOr_eq_ok, Prod.exists, parseUint32_eq_ok, guardE_eq_ok,
      List.isEmpty_iff] at h
    obtain ⟨d, r, rfl, _, rfl, h⟩ := h
    cases h
    simp
  · rintro rfl
    simp [parseUint32_u32_nil, guardE_nil]

theorem Msg.Debug.parse_iff {b : Bytes} {o : Msg.Debug} :
    Msg.Debug.parse b = ok o ↔ (Spec.Fits o.message ∧ Spec.Fits o.language ∧ Spec.Utf8 o.message) ∧
      ∃ t : Byte, t ≠ 0 ∧ b = Spec.boolT t o.alwaysDisplay ++ Spec.str o.message
        ++ Spec.str o.language := by
  unfold Msg.Debug.parse
  constructor
  · intro h
    simp only [bind_eq_ok, okOr_eq_ok, Prod.exists, parseString_eq_ok, guardE_eq_ok,
      List.isEmpty_iff, parseBool_eq_ok, fromUtf8_eq_ok] at h
    obtain ⟨v, r, ⟨a, rfl, rfl⟩, m, r2, ⟨hm, rfl⟩, l, r3, ⟨hl, rfl⟩, m', ⟨hu, rfl⟩, _, rfl, h⟩ := h
    cases h
    obtain ⟨t, ht, he⟩ := bool_eq_of_byte a
    refine ⟨⟨hm, hl, hu⟩, t, ht, ?_⟩
    rw [← he]; simp
  · rintro ⟨⟨h1, h2, h3⟩, t, ht, rfl⟩
    simp [parseBool_boolT ht, parseString_str_cons h1, parseString_str_nil h2, guardE_nil,
      fromUtf8_eq_ok.mpr ⟨h3, rfl⟩]

theorem Msg.Service.parse_iff {b : Bytes} {o : Msg.Service} :
    Msg.Service.parse b = ok o ↔ Spec.Fits o.serviceName ∧ b = Spec.str o.serviceName := by
  unfold Msg.Service.parse
  constructor
  · intro h
    simp only [bind_eq_ok, okOr_eq_ok, Prod.exists, parseString_eq_ok, guardE_eq_ok,
      List.isEmpty_iff] at h
    obtain ⟨d, r, ⟨hd, rfl⟩, _, rfl, h⟩ := h
    cases h
    simp [hd]
  · rintro ⟨h1, rfl⟩
    simp [parseString_str_nil h1, guardE_nil]

/-! ### key exchange -/

theorem nameListE_eq_ok {b r : Bytes} {l : NameList} :
    Kex.KexInit.nameListE b = ok (l, r) ↔ Spec.nlWF l ∧ b = Spec.str l.str ++ r := by
  unfold Kex.KexInit.nameListE nameList
  constructor
  · intro h
    simp only [bind_eq_ok, okOr_eq_ok, Prod.exists, parseString_eq_ok, mapErr_eq_ok] at h
    obtain ⟨x, r2, ⟨s, r3, ⟨hs, rfl⟩, h⟩, l2, hl, he⟩ := h
    cases h
    cases he
    rw [NameList.tryFrom_eq_ok] at hl
    obtain ⟨hl, rfl⟩ := hl
    exact ⟨⟨hs, hl⟩, rfl⟩
  · rintro ⟨⟨h1, h2⟩, rfl⟩
    simp [parseString_str_cons h1, NameList.tryFrom_eq_ok.mpr ⟨h2, rfl⟩]

theorem Kex.KexInit.parse_iff {b : Bytes} {o : Kex.KexInit} :
    Kex.KexInit.parse b = ok o ↔ Spec.WF (.kexInit o) ∧
      ∃ t : Byte, t ≠ 0 ∧ b = Spec.body t (.kexInit o) := by
  unfold Kex.KexInit.parse
  constructor
  · intro h
    simp only [bind_eq_ok, okOr_eq_ok, Prod.exists, split_eq_ok, nameListE_eq_ok, guardE_eq_ok,
      List.isEmpty_iff, assertP_eq_ok, beq_iff_eq] at h
    obtain ⟨cookie, r, ⟨hc, rfl⟩, l1, r1, ⟨h1, rfl⟩, l2, r2, ⟨h2, rfl⟩, l3, r3, ⟨h3, rfl⟩,
      l4, r4, ⟨h4, rfl⟩, l5, r5, ⟨h5, rfl⟩, l6, r6, ⟨h6, rfl⟩, l7, r7, ⟨h7, rfl⟩,
      l8, r8, ⟨h8, rfl⟩, l9, r9, ⟨h9, rfl⟩, l10, r10, ⟨h10, rfl⟩, f, r11, ⟨hf, rfl⟩,
      z, r12, ⟨hz, rfl⟩, _, rfl, _, rfl, _, _, a, ha, h⟩ := h
    match f, hf with
    | [a'], _ =>
      simp only [idxAt, List.getElem?_cons_zero, R.ok.injEq] at ha
      subst ha
      cases h
      obtain ⟨t, ht, he⟩ := bool_eq_of_byte a'
      refine ⟨⟨hc, h1, h2, h3, h4, h5, h6, h7, h8, h9, h10⟩, t, ht, ?_⟩
      simp only [Spec.body, ← he]
      simp [Spec.u32]
  · rintro ⟨⟨hc, h1, h2, h3, h4, h5, h6, h7, h8, h9, h10⟩, t, ht, rfl⟩
    simp only [bind_eq_ok, okOr_eq_ok, Prod.exists, split_eq_ok, nameListE_eq_ok, guardE_eq_ok,
      List.isEmpty_iff, assertP_eq_ok, beq_iff_eq]
    refine ⟨o.cookie, _, ⟨hc, ?_⟩, o.kexAlgorithms, _, ⟨h1, rfl⟩, o.serverHostKeyAlgorithms, _,
      ⟨h2, rfl⟩, o.encryptionAlgorithmsClientToServer, _, ⟨h3, rfl⟩,
      o.encryptionAlgorithmsServerToClient, _, ⟨h4, rfl⟩, o.macAlgorithmsClientToServer, _,
      ⟨h5, rfl⟩, o.macAlgorithmsServerToClient, _, ⟨h6, rfl⟩,
      o.compressionAlgorithmsClientToServer, _, ⟨h7, rfl⟩,
      o.compressionAlgorithmsServerToClient, _, ⟨h8, rfl⟩, o.languagesClientToServer, _,
      ⟨h9, rfl⟩, o.languagesServerToClient, _, ⟨h10, rfl⟩,
      Spec.boolT t o.firstKexPacketFollows, _, ⟨rfl, rfl⟩, [0, 0, 0, 0], [], ⟨rfl, rfl⟩, (), rfl,
      (), rfl, (), hc, if o.firstKexPacketFollows then t else 0, rfl, ?_⟩
    · simp only [Spec.body, List.append_assoc]
      rfl
    · obtain ⟨_, _, _, _, _, _, _, _, _, _, _, f⟩ := o
      cases f <;> simp [ht]

theorem Kex.NewKeys.parse_iff {b : Bytes} {u : Unit} : Kex.NewKeys.parse b = ok u ↔ b = [] := by
  simp [Kex.NewKeys.parse]

theorem Kex.EcdhInit.parse_iff {b : Bytes} {o : Kex.EcdhInit} :
    Kex.EcdhInit.parse b = ok o ↔
      Spec.Fits o.clientEphermalPublicKey ∧ b = Spec.str o.clientEphermalPublicKey := by
  unfold Kex.EcdhInit.parse
  constructor
  · intro h
    simp only [bind_eq_ok, okOr_eq_ok, Prod.exists, parseString_eq_ok, guardE_eq_ok,
      List.isEmpty_iff] at h
    obtain ⟨d, r, ⟨hd, rfl⟩, _, rfl, h⟩ := h
    cases h
    simp [hd]
  · rintro ⟨h1, rfl⟩
    simp [parseString_str_nil h1, guardE_nil]

/-- ecdh.rs:82 makes the host key unparsable -/
theorem Kex.Key.parse_ne_ok {b : Bytes} {k : Kex.Key} : Kex.Key.parse b ≠ ok k := by
  intro h
  simp only [Kex.Key.parse, Kex.KeyBlob.parse, bind_eq_ok, Prod.exists, parseString_eq_ok,
    guardE_eq_ok, List.isEmpty_iff] at h
  obtain ⟨n, r, ⟨_, rfl⟩, kb, ⟨i, r2, ⟨_, hi⟩, _⟩, _, hr, _⟩ := h
  rw [hr] at hi
  have := congrArg List.length hi
  simp at this; omega

theorem Kex.EcdhReply.parse_ne_ok {b : Bytes} {o : Kex.EcdhReply} :
    Kex.EcdhReply.parse b ≠ ok o := by
  intro h
  simp only [Kex.EcdhReply.parse, bind_eq_ok, okOr_eq_ok] at h
  obtain ⟨_, _, _, h, _⟩ := h
  exact Kex.Key.parse_ne_ok h

/-! ### user authentication -/

theorem Auth.Request.parse_iff {b : Bytes} {o : Auth.Request} :
    Auth.Request.parse b = ok o ↔ Spec.WF (.userAuth (.request o)) ∧
      ∃ t : Byte, t ≠ 0 ∧ b = Spec.body t (.userAuth (.request o)) := by
  constructor
  · intro h
    unfold Auth.Request.parse at h
    simp only [bind_eq_ok, okOr_eq_ok, Prod.exists, parseString_eq_ok, guardE_eq_ok,
      List.isEmpty_iff, splitFirst_eq_ok] at h
    obtain ⟨user, r1, ⟨h1, rfl⟩, service, r2, ⟨h2, rfl⟩, mth, r3, ⟨h3, rfl⟩, method, h, ho⟩ := h
    cases ho
    split_ifs at h with m1 m2 m3 m4
    · subst m1
      simp only [bind_eq_ok, guardE_eq_ok, List.isEmpty_iff] at h
      obtain ⟨_, rfl, h⟩ := h
      cases h
      exact ⟨⟨h1, h2, trivial⟩, 1, by decide, by simp [Spec.body, Spec.methodBody]⟩
    · subst m2
      simp only [bind_eq_ok, okOr_eq_ok, Prod.exists, splitFirst_eq_ok] at h
      obtain ⟨sign, r4, rfl, h⟩ := h
      split_ifs at h with hs
      · subst hs
        simp only [bind_eq_ok, okOr_eq_ok, Prod.exists, parseString_eq_ok, guardE_eq_ok,
          List.isEmpty_iff] at h
        obtain ⟨alg, r5, ⟨h5, rfl⟩, blob, r6, ⟨h6, rfl⟩, _, rfl, h⟩ := h
        cases h
        exact ⟨⟨h1, h2, h5, h6⟩, 1, by decide, by simp [Spec.body, Spec.methodBody, Spec.boolT]⟩
      · simp only [bind_eq_ok, okOr_eq_ok, Prod.exists, parseString_eq_ok, guardE_eq_ok,
          List.isEmpty_iff] at h
        obtain ⟨alg, r5, ⟨h5, rfl⟩, key, r6, ⟨h6, rfl⟩, sig, r7, ⟨h7, rfl⟩, _, rfl, h⟩ := h
        cases h
        exact ⟨⟨h1, h2, h5, h6, h7⟩, sign, hs,
          by simp [Spec.body, Spec.methodBody, Spec.boolT]⟩
    · subst m3
      simp only [bind_eq_ok, okOr_eq_ok, Prod.exists, splitFirst_eq_ok] at h
      obtain ⟨renew, r4, rfl, h⟩ := h
      split_ifs at h with hs
      · subst hs
        simp only [bind_eq_ok, okOr_eq_ok, Prod.exists, parseString_eq_ok, guardE_eq_ok,
          List.isEmpty_iff] at h
        obtain ⟨pw, r5, ⟨h5, rfl⟩, _, rfl, h⟩ := h
        cases h
        exact ⟨⟨h1, h2, h5⟩, 1, by decide, by simp [Spec.body, Spec.methodBody, Spec.boolT]⟩
      · simp only [bind_eq_ok, okOr_eq_ok, Prod.exists, parseString_eq_ok, guardE_eq_ok,
          List.isEmpty_iff] at h
        obtain ⟨old, r5, ⟨h5, rfl⟩, new, r6, ⟨h6, rfl⟩, _, rfl, h⟩ := h
        cases h
        exact ⟨⟨h1, h2, h5, h6⟩, renew, hs,
          by simp [Spec.body, Spec.methodBody, Spec.boolT]⟩
    · subst m4
      simp only [bind_eq_ok, okOr_eq_ok, Prod.exists, parseString_eq_ok, guardE_eq_ok,
        List.isEmpty_iff, AsciiStr.tryFrom_eq_ok, fromUtf8_eq_ok] at h
      obtain ⟨alg, r5, ⟨h5, rfl⟩, key, r6, ⟨h6, rfl⟩, host, r7, ⟨h7, rfl⟩, un, r8, ⟨h8, rfl⟩,
        sig, r9, ⟨h9, rfl⟩, _, rfl, host', ⟨ha, rfl⟩, un', ⟨hu, rfl⟩, h⟩ := h
      cases h
      exact ⟨⟨h1, h2, h5, h6, h7, h8, h9, ha, hu⟩, 1, by decide,
        by simp [Spec.body, Spec.methodBody]⟩
    · cases h
      refine ⟨⟨h1, h2, h3, ?_⟩, 1, by decide, by simp [Spec.body, Spec.methodBody]⟩
      simp only [Spec.knownMethods, List.mem_cons, List.not_mem_nil, or_false, not_or]
      exact ⟨m1, m2, m3, m4⟩
  · rintro ⟨⟨h1, h2, h3⟩, t, ht, rfl⟩
    obtain ⟨user, service, method⟩ := o
    unfold Auth.Request.parse
    simp only [Spec.body, List.append_assoc, parseString_str_cons h1, parseString_str_cons h2,
      ok_okOr, ok_bind]
    have fits : ∀ s ∈ Spec.knownMethods, Spec.Fits s := by decide
    cases method with
    | none =>
      simp only [Spec.methodBody, parseString_str_nil (fits (b! "none") (by decide)), ok_okOr,
        ok_bind, if_true, guardE_nil]
    | publicKeyBlob algorithm blob =>
      simp only [Spec.methodBody, List.append_assoc,
        parseString_str_cons (fits (b! "publickey") (by decide)), ok_okOr, ok_bind]
      rw [if_neg (by decide), if_pos trivial]
      simp [Spec.boolT, splitFirst, parseString_str_cons h3.1, parseString_str_nil h3.2,
        guardE_nil]
    | publicKeySigned algorithm key signature =>
      simp only [Spec.methodBody, List.append_assoc,
        parseString_str_cons (fits (b! "publickey") (by decide)), ok_okOr, ok_bind]
      rw [if_neg (by decide), if_pos trivial]
      simp [Spec.boolT, splitFirst, parseString_str_cons h3.1, parseString_str_cons h3.2.1,
        parseString_str_nil h3.2.2, guardE_nil, ht]
    | password password =>
      simp only [Spec.methodBody, List.append_assoc,
        parseString_str_cons (fits (b! "password") (by decide)), ok_okOr, ok_bind]
      rw [if_neg (by decide), if_neg (by decide), if_pos trivial]
      simp [Spec.boolT, splitFirst, parseString_str_nil h3, guardE_nil]
    | passwordRenew old new =>
      simp only [Spec.methodBody, List.append_assoc,
        parseString_str_cons (fits (b! "password") (by decide)), ok_okOr, ok_bind]
      rw [if_neg (by decide), if_neg (by decide), if_pos trivial]
      simp [Spec.boolT, splitFirst, parseString_str_cons h3.1, parseString_str_nil h3.2,
        guardE_nil, ht]
    | hostBased algorithm key host userName signature =>
      obtain ⟨f1, f2, f3, f4, f5, ha, hu⟩ := h3
      simp only [Spec.methodBody, List.append_assoc,
        parseString_str_cons (fits (b! "hostbased") (by decide)), ok_okOr, ok_bind]
      rw [if_neg (by decide), if_neg (by decide), if_neg (by decide), if_pos trivial]
      simp [parseString_str_cons f1, parseString_str_cons f2, parseString_str_cons f3,
        parseString_str_cons f4, parseString_str_nil f5, guardE_nil,
        AsciiStr.tryFrom_eq_ok.mpr ⟨ha, rfl⟩, fromUtf8_eq_ok.mpr ⟨hu, rfl⟩]
    | other method data =>
      obtain ⟨f, hk⟩ := h3
      simp only [Spec.knownMethods, List.mem_cons, List.not_mem_nil, or_false, not_or] at hk
      simp only [Spec.methodBody, parseString_str_cons f, ok_okOr, ok_bind]
      rw [if_neg hk.1, if_neg hk.2.1, if_neg hk.2.2.1, if_neg hk.2.2.2]
      simp

theorem Auth.Failure.parse_iff {b : Bytes} {o : Auth.Failure} :
    Auth.Failure.parse b = ok o ↔ Spec.nlWF o.alternativeMethods ∧
      ∃ t : Byte, t ≠ 0 ∧ b = Spec.str o.alternativeMethods.str ++ Spec.boolT t o.partialSuccess := by
  unfold Auth.Failure.parse
  constructor
  · intro h
    simp only [bind_eq_ok, okOr_eq_ok, Prod.exists, parseString_eq_ok] at h
    obtain ⟨s, r, ⟨hs, rfl⟩, h⟩ := h
    split at h
    · cases h
    · rename_i a
      simp only [bind_eq_ok, mapErr_eq_ok, NameList.tryFrom_eq_ok] at h
      obtain ⟨l, ⟨hl, rfl⟩, h⟩ := h
      cases h
      obtain ⟨t, ht, he⟩ := bool_eq_of_byte a
      exact ⟨⟨hs, hl⟩, t, ht, by rw [← he]⟩
    · cases h
  · rintro ⟨⟨h1, h2⟩, t, ht, rfl⟩
    simp only [parseString_str_cons h1, ok_okOr, ok_bind, Spec.boolT,
      NameList.tryFrom_eq_ok.mpr ⟨h2, rfl⟩, ok_mapErr]
    obtain ⟨l, p⟩ := o
    cases p <;> simp [ht]

theorem Auth.Success.parse_iff {b : Bytes} {u : Unit} : Auth.Success.parse b = ok u ↔ b = [] := by
  simp [Auth.Success.parse]

theorem Auth.Banner.parse_iff {b : Bytes} {o : Auth.Banner} :
    Auth.Banner.parse b = ok o ↔ (Spec.Fits o.message ∧ Spec.Fits o.language) ∧
      b = Spec.str o.message ++ Spec.str o.language := by
  unfold Auth.Banner.parse
  constructor
  · intro h
    simp only [bind_eq_ok, okOr_eq_ok, Prod.exists, parseString_eq_ok, guardE_eq_ok,
      List.isEmpty_iff] at h
    obtain ⟨d, r, ⟨hd, rfl⟩, e, r2, ⟨he, rfl⟩, _, rfl, h⟩ := h
    cases h
    simp [hd, he]
  · rintro ⟨⟨h1, h2⟩, rfl⟩
    simp [parseString_str_cons h1, parseString_str_nil h2, guardE_nil]

theorem Auth.PublicKeyOk.parse_iff {b : Bytes} {o : Auth.PublicKeyOk} :
    Auth.PublicKeyOk.parse b = ok o ↔ (Spec.Fits o.algorithm ∧ Spec.Fits o.blob) ∧
      b = Spec.str o.algorithm ++ Spec.str o.blob := by
  unfold Auth.PublicKeyOk.parse
  constructor
  · intro h
    simp only [bind_eq_ok, okOr_eq_ok, Prod.exists, parseString_eq_ok, guardE_eq_ok,
      List.isEmpty_iff] at h
    obtain ⟨d, r, ⟨hd, rfl⟩, e, r2, ⟨he, rfl⟩, _, rfl, h⟩ := h
    cases h
    simp [hd, he]
  · rintro ⟨⟨h1, h2⟩, rfl⟩
    simp [parseString_str_cons h1, parseString_str_nil h2, guardE_nil]

/-! ### channels -/

theorem Chan.Open.parse_iff {b : Bytes} {o : Chan.Open} :
    Chan.Open.parse b = ok o ↔ Spec.Fits o.ty ∧ b = Spec.body 1 (.channel (.open o)) := by
  unfold Chan.Open.parse
  constructor
  · intro h
    simp only [bind_eq_ok, okOr_eq_ok, Prod.exists, parseString_eq_ok] at h
    obtain ⟨s, r, ⟨hs, rfl⟩, h⟩ := h
    split_ifs at h with h1 h2
    have hr : r.length = 12 := by omega
    simp only [idxTo, idxFrom, idxRange, hr] at h
    rw [if_pos (by omega), if_pos (by omega), if_pos (by omega)] at h
    simp only [ok_bind, bind_eq_ok, u32FromBe_eq_ok] at h
    obtain ⟨a, ha, c, hc, d, hd, h⟩ := h
    cases h
    refine ⟨hs, ?_⟩
    simp only [Spec.body, List.append_assoc]
    rw [← ha, ← hc, ← hd]
    congr 1
    have e1 : r.take 4 = (r.take 8).take 4 := by rw [List.take_take]; rfl
    rw [e1, ← List.append_assoc (List.take 4 (List.take 8 r)), List.take_append_drop,
      List.take_append_drop]
  · rintro ⟨h1, rfl⟩
    simp only [Spec.body, List.append_assoc, parseString_str_cons h1, ok_okOr, ok_bind]
    rw [if_neg (by simp), if_neg (by simp)]
    have e1 : ∀ v w x : UInt32, (Spec.u32 v.toNat ++ (Spec.u32 w.toNat ++ Spec.u32 x.toNat)).take 4
        = Spec.u32 v.toNat := fun v w x => rfl
    have e2 : ∀ v w x : UInt32,
        ((Spec.u32 v.toNat ++ (Spec.u32 w.toNat ++ Spec.u32 x.toNat)).take 8).drop 4
        = Spec.u32 w.toNat := fun v w x => rfl
    have e3 : ∀ v w x : UInt32,
        (Spec.u32 v.toNat ++ (Spec.u32 w.toNat ++ Spec.u32 x.toNat)).drop 8
        = Spec.u32 x.toNat := fun v w x => rfl
    simp [idxTo, idxRange, idxFrom, e1, e2, e3]

theorem u32_split4 {b : Bytes} (h : 16 ≤ b.length) : b = b.take 4 ++ ((b.take 8).drop 4 ++
    ((b.take 12).drop 8 ++ ((b.take 16).drop 12 ++ b.drop 16))) := by
  have e1 : b.take 4 = (b.take 8).take 4 := by rw [List.take_take]; rfl
  have e2 : b.take 8 = (b.take 12).take 8 := by rw [List.take_take]; rfl
  have e3 : b.take 12 = (b.take 16).take 12 := by rw [List.take_take]; rfl
  rw [e1, ← List.append_assoc, List.take_append_drop, e2, ← List.append_assoc,
    List.take_append_drop, e3, ← List.append_assoc, List.take_append_drop, List.take_append_drop]

theorem Chan.OpenConfirmation.parse_iff {b : Bytes} {o : Chan.OpenConfirmation} :
    Chan.OpenConfirmation.parse b = ok o ↔ b = Spec.body 1 (.channel (.openConfirmation o)) := by
  unfold Chan.OpenConfirmation.parse
  constructor
  · intro h
    split_ifs at h with h1
    have hr : 16 ≤ b.length := by omega
    simp only [idxTo, idxFrom, idxRange, show 4 ≤ b.length by omega,
      show 4 ≤ 8 ∧ 8 ≤ b.length by omega, show 8 ≤ 12 ∧ 12 ≤ b.length by omega,
      show 12 ≤ 16 ∧ 16 ≤ b.length by omega, hr, and_self, if_true, ok_bind, bind_eq_ok,
      u32FromBe_eq_ok] at h
    obtain ⟨a, ha, c, hc, d, hd, e, he, h⟩ := h
    cases h
    simp only [Spec.body, List.append_assoc]
    rw [← ha, ← hc, ← hd, ← he]
    exact u32_split4 hr
  · rintro rfl
    simp only [Spec.body, List.append_assoc]
    rw [if_neg (by simp; omega)]
    have e1 : ∀ (v w x y : UInt32) (r : Bytes), (Spec.u32 v.toNat ++ (Spec.u32 w.toNat ++
        (Spec.u32 x.toNat ++ (Spec.u32 y.toNat ++ r)))).take 4 = Spec.u32 v.toNat :=
      fun _ _ _ _ _ => rfl
    have e2 : ∀ (v w x y : UInt32) (r : Bytes), ((Spec.u32 v.toNat ++ (Spec.u32 w.toNat ++
        (Spec.u32 x.toNat ++ (Spec.u32 y.toNat ++ r)))).take 8).drop 4 = Spec.u32 w.toNat :=
      fun _ _ _ _ _ => rfl
    have e3 : ∀ (v w x y : UInt32) (r : Bytes), ((Spec.u32 v.toNat ++ (Spec.u32 w.toNat ++
        (Spec.u32 x.toNat ++ (Spec.u32 y.toNat ++ r)))).take 12).drop 8 = Spec.u32 x.toNat :=
      fun _ _ _ _ _ => rfl
    have e4 : ∀ (v w x y : UInt32) (r : Bytes), ((Spec.u32 v.toNat ++ (Spec.u32 w.toNat ++
        (Spec.u32 x.toNat ++ (Spec.u32 y.toNat ++ r)))).take 16).drop 12 = Spec.u32 y.toNat :=
      fun _ _ _ _ _ => rfl
    have e5 : ∀ (v w x y : UInt32) (r : Bytes), (Spec.u32 v.toNat ++ (Spec.u32 w.toNat ++
        (Spec.u32 x.toNat ++ (Spec.u32 y.toNat ++ r)))).drop 16 = r :=
      fun _ _ _ _ _ => rfl
    simp only [idxTo, idxRange, idxFrom, e1, e2, e3, e4, e5, List.length_append, u32_length]
    rw [if_pos (by omega), if_pos (by omega), if_pos (by omega), if_pos (by omega),
      if_pos (by omega)]
    simp

theorem reason_ofCode {r : UInt32} : (Chan.OpenFailureReason.ofCode r).code = r := by
  unfold Chan.OpenFailureReason.ofCode
  split_ifs with h1 h2 h3 h4 <;> simp [Chan.OpenFailureReason.code, *]

theorem reason_code {o : Chan.OpenFailureReason}
    (h : ∀ r, o = .other r → r.toNat ∉ [1, 2, 3, 4]) : Chan.OpenFailureReason.ofCode o.code = o := by
  cases o with
  | other r =>
    have h := h r rfl
    simp only [List.mem_cons, List.not_mem_nil, or_false, not_or] at h
    unfold Chan.OpenFailureReason.ofCode Chan.OpenFailureReason.code
    simp only [← UInt32.toNat_inj, UInt32.reduceToNat]
    rw [if_neg h.1, if_neg h.2.1, if_neg h.2.2.1, if_neg h.2.2.2]
  | _ => decide

theorem reason_num {o : Chan.OpenFailureReason} : o.code.toNat = Spec.reasonNum o := by
  cases o <;> rfl

theorem reason_ofCode_wf {r x : UInt32} (h : Chan.OpenFailureReason.ofCode r = .other x) :
    x.toNat ∉ [1, 2, 3, 4] := by
  unfold Chan.OpenFailureReason.ofCode at h
  split_ifs at h with h1 h2 h3 h4
  cases h
  simp only [← UInt32.toNat_inj, UInt32.reduceToNat] at h1 h2 h3 h4
  simp [h1, h2, h3, h4]

theorem Chan.OpenFailure.parse_iff {b : Bytes} {o : Chan.OpenFailure} :
    Chan.OpenFailure.parse b = ok o ↔ Spec.WF (.channel (.openFailure o)) ∧
      b = Spec.body 1 (.channel (.openFailure o)) := by
  unfold Chan.OpenFailure.parse
  constructor
  · intro h
    simp only [bind_eq_ok, okOr_eq_ok, Prod.exists, parseString_eq_ok, guardE_eq_ok,
      List.isEmpty_iff, parseUint32_eq_ok, fromUtf8_eq_ok] at h
    obtain ⟨a, r, rfl, c, r2, rfl, d, r3, ⟨hd, rfl⟩, l, r4, ⟨hl, rfl⟩, _, rfl, d', ⟨hu, rfl⟩, h⟩ := h
    cases h
    refine ⟨⟨hd, hl, hu, fun r hr => reason_ofCode_wf hr⟩, ?_⟩
    simp [Spec.body, ← reason_num, reason_ofCode]
  · rintro ⟨⟨h1, h2, h3, h4⟩, rfl⟩
    simp [Spec.body, ← reason_num, parseUint32_u32, parseString_str_cons h1,
      parseString_str_nil h2, guardE_nil, fromUtf8_eq_ok.mpr ⟨h3, rfl⟩, reason_code h4]

theorem Chan.WindowAdjust.parse_iff {b : Bytes} {o : Chan.WindowAdjust} :
    Chan.WindowAdjust.parse b = ok o ↔ b = Spec.body 1 (.channel (.windowAdjust o)) := by
  unfold Chan.WindowAdjust.parse
  constructor
  · intro h
    simp only [bind_eq_ok, okOr_eq_ok, Prod.exists, guardE_eq_ok,
      List.isEmpty_iff, parseUint32_eq_ok] at h
    obtain ⟨a, r, rfl, c, r2, rfl, _, rfl, h⟩ := h
    cases h
    simp [Spec.body]
  · rintro rfl
    simp [Spec.body, parseUint32_u32, parseUint32_u32_nil, guardE_nil]

theorem Chan.Data.parse_iff {b : Bytes} {o : Chan.Data} :
    Chan.Data.parse b = ok o ↔ Spec.Fits o.data ∧ b = Spec.body 1 (.channel (.data o)) := by
  unfold Chan.Data.parse
  constructor
  · intro h
    simp only [bind_eq_ok, okOr_eq_ok, Prod.exists, guardE_eq_ok, parseString_eq_ok,
      List.isEmpty_iff, parseUint32_eq_ok] at h
    obtain ⟨a, r, rfl, c, r2, ⟨hc, rfl⟩, _, rfl, h⟩ := h
    cases h
    simp [Spec.body, hc]
  · rintro ⟨h1, rfl⟩
    simp [Spec.body, parseUint32_u32, parseString_str_nil h1, guardE_nil]

theorem Chan.ExtendedData.parse_iff {b : Bytes} {o : Chan.ExtendedData} :
    Chan.ExtendedData.parse b = ok o ↔
      Spec.Fits o.data ∧ b = Spec.body 1 (.channel (.extendedData o)) := by
  unfold Chan.ExtendedData.parse
  constructor
  · intro h
    simp only [bind_eq_ok, okOr_eq_ok, Prod.exists, guardE_eq_ok, parseString_eq_ok,
      List.isEmpty_iff, parseUint32_eq_ok] at h
    obtain ⟨a, r, rfl, a2, r3, rfl, c, r2, ⟨hc, rfl⟩, _, rfl, h⟩ := h
    cases h
    simp [Spec.body, hc]
  · rintro ⟨h1, rfl⟩
    simp [Spec.body, parseUint32_u32, parseString_str_nil h1, guardE_nil]

theorem Chan.Request.parse_iff {b : Bytes} {o : Chan.Request} :
    Chan.Request.parse b = ok o ↔
      Spec.Fits o.ty ∧ ∃ t : Byte, t ≠ 0 ∧ b = Spec.body t (.channel (.request o)) := by
  unfold Chan.Request.parse
  constructor
  · intro h
    simp only [bind_eq_ok, okOr_eq_ok, Prod.exists, getTo_eq_ok, parseString_eq_ok,
      u32FromBe_eq_ok] at h
    obtain ⟨x, ⟨h4, rfl⟩, c, hc, y, hy, ty, r, ⟨hty, rfl⟩, w, hw, d, hd, h⟩ := h
    unfold idxFrom at hy hd
    split_ifs at hy hd
    cases hd
    cases h
    simp only [R.ok.injEq] at hy
    cases r with
    | nil => simp [getAt] at hw
    | cons a r =>
      simp only [getAt, List.getElem?_cons_zero, R.ok.injEq] at hw
      subst hw
      obtain ⟨t, ht, he⟩ := bool_eq_of_byte a
      refine ⟨hty, t, ht, ?_⟩
      rw [append_of_take hc, hy]
      simp only [Spec.body, List.append_assoc, ← he]
      rfl
  · rintro ⟨h1, t, ht, rfl⟩
    have : getTo (Spec.body t (.channel (.request o))) 4
        = ok (Spec.u32 o.recipientChannel.toNat) := by
      rw [getTo_eq_ok]; simp [Spec.body, Spec.u32]
    rw [this]
    have e : (Spec.body t (.channel (.request o))).drop 4 =
        Spec.str o.ty ++ (Spec.boolT t o.wantReply ++ o.data) := by
      simp only [Spec.body, List.append_assoc]
      rfl
    have hl : 4 ≤ (Spec.body t (.channel (.request o))).length := by
      simp [Spec.body]
    simp only [ok_okOr, ok_bind, u32FromBe_u32, idxFrom, if_pos hl, e, parseString_str_cons h1]
    obtain ⟨_, _, w, _⟩ := o
    cases w <;> simp [Spec.boolT, getAt, ht]

theorem Chan.ChanOnly.parse_iff {b : Bytes} {o : Chan.ChanOnly} :
    Chan.ChanOnly.parse b = ok o ↔ b = Spec.u32 o.recipientChannel.toNat := by
  unfold Chan.ChanOnly.parse
  split_ifs with h
  · simp only [bind_eq_ok, u32FromBe_eq_ok]
    constructor
    · rintro ⟨v, hv, h⟩; cases h; exact hv
    · rintro rfl; exact ⟨o.recipientChannel, rfl, rfl⟩
  · constructor
    · intro h; cases h
    · rintro rfl; simp at h

end Nora
