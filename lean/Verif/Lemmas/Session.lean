import Verif.Lemmas.MsgSer
/-
Session channel requests.
-/
set_option linter.unusedSimpArgs false

namespace Nora
open R

theorem Signal.ofName_iff (n : Bytes) (s : Signal) : Signal.ofName n = s ↔ Spec.SignalName s n := by
  unfold Spec.SignalName Spec.signalTable Signal.ofName
  constructor
  · intro h
    subst h
    by_cases h : n ∈ Spec.signalTable.map Prod.snd
    · simp only [Spec.signalTable, List.map_cons, List.map_nil, List.mem_cons,
        List.not_mem_nil, or_false] at h
      rcases h with rfl | rfl | rfl | rfl | rfl | rfl | rfl | rfl | rfl | rfl | rfl | rfl | rfl <;>
        decide
    · right
      have h' := h
      simp only [Spec.signalTable, List.map_cons, List.map_nil, List.mem_cons,
        List.not_mem_nil, or_false, not_or] at h
      obtain ⟨h1, h2, h3, h4, h5, h6, h7, h8, h9, h10, h11, h12, h13⟩ := h
      refine ⟨?_, h'⟩
      rw [if_neg h1, if_neg h2, if_neg h3, if_neg h4, if_neg h5, if_neg h6, if_neg h7, if_neg h8,
        if_neg h9, if_neg h10, if_neg h11, if_neg h12, if_neg h13]
  · rintro (h | ⟨rfl, h⟩)
    · simp only [List.mem_cons, Prod.mk.injEq, List.not_mem_nil, or_false] at h
      rcases h with ⟨rfl, rfl⟩ | ⟨rfl, rfl⟩ | ⟨rfl, rfl⟩ | ⟨rfl, rfl⟩ | ⟨rfl, rfl⟩ | ⟨rfl, rfl⟩ |
        ⟨rfl, rfl⟩ | ⟨rfl, rfl⟩ | ⟨rfl, rfl⟩ | ⟨rfl, rfl⟩ | ⟨rfl, rfl⟩ | ⟨rfl, rfl⟩ | ⟨rfl, rfl⟩ <;>
        decide
    · simp only [Spec.signalTable, List.map_cons, List.map_nil, List.mem_cons,
        List.not_mem_nil, or_false, not_or] at h
      obtain ⟨h1, h2, h3, h4, h5, h6, h7, h8, h9, h10, h11, h12, h13⟩ := h
      rw [if_neg h1, if_neg h2, if_neg h3, if_neg h4, if_neg h5, if_neg h6, if_neg h7, if_neg h8,
        if_neg h9, if_neg h10, if_neg h11, if_neg h12, if_neg h13]

theorem Signal.name_of_signalName {s : Signal} {n : Bytes} (h : Spec.SignalName s n) :
    s.name = n := by
  unfold Spec.SignalName Spec.signalTable at h
  rcases h with h | ⟨rfl, _⟩
  · simp only [List.mem_cons, Prod.mk.injEq, List.not_mem_nil, or_false] at h
    rcases h with ⟨rfl, rfl⟩ | ⟨rfl, rfl⟩ | ⟨rfl, rfl⟩ | ⟨rfl, rfl⟩ | ⟨rfl, rfl⟩ | ⟨rfl, rfl⟩ |
      ⟨rfl, rfl⟩ | ⟨rfl, rfl⟩ | ⟨rfl, rfl⟩ | ⟨rfl, rfl⟩ | ⟨rfl, rfl⟩ | ⟨rfl, rfl⟩ | ⟨rfl, rfl⟩ <;>
      rfl
  · rfl

theorem parseBool_boolT_nil {t : Byte} {v : Bool} (h : t ≠ 0) :
    parseBool (Spec.boolT t v) = ok (v, []) := by
  have := parseBool_boolT (v := v) (r := []) h
  simpa using this

/-- what the session request parser accepts -/
theorem SessionRequest.parse_iff {ty data : Bytes} {r : SessionRequest} :
    SessionRequest.parse ty data = ok r ↔ ∃ t : Byte, t ≠ 0 ∧ Spec.SessionWire t r ty data := by
  have one : (1 : Byte) ≠ 0 := by decide
  constructor
  · intro h
    unfold SessionRequest.parse at h
    replace h := ite_or h
    rcases h with ⟨hty, h⟩ | ⟨-, h⟩
    · subst hty
      simp only [bind_eq_ok, okOr_eq_ok, Prod.exists, parseString_eq_ok, parseUint32_eq_ok,
        guardE_eq_ok, List.isEmpty_iff] at h
      obtain ⟨_, _, ⟨h1, rfl⟩, _, _, rfl, _, _, rfl, _, _, rfl, _, _, rfl, _, _, ⟨h2, rfl⟩, _, rfl, h⟩ := h
      cases h
      refine ⟨1, one, ?_⟩
      simpa using Spec.SessionWire.pty h1 h2
    replace h := ite_or h
    rcases h with ⟨hty, h⟩ | ⟨-, h⟩
    · subst hty
      simp only [bind_eq_ok, okOr_eq_ok, Prod.exists, parseString_eq_ok, parseUint32_eq_ok,
        guardE_eq_ok, List.isEmpty_iff, parseBool_eq_ok] at h
      obtain ⟨_, _, ⟨a, rfl, rfl⟩, _, _, ⟨h1, rfl⟩, _, _, ⟨h2, rfl⟩, sc, _, rfl, _, rfl, h⟩ := h
      cases h
      obtain ⟨t, ht, he⟩ := bool_eq_of_byte a
      refine ⟨t, ht, ?_⟩
      have := Spec.SessionWire.x11 (t := t) (single := a != 0) (screen := sc) h1 h2
      rw [← he] at this
      simpa using this
    replace h := ite_or h
    rcases h with ⟨hty, h⟩ | ⟨-, h⟩
    · subst hty
      simp only [bind_eq_ok, okOr_eq_ok, Prod.exists, parseString_eq_ok,
        guardE_eq_ok, List.isEmpty_iff] at h
      obtain ⟨_, _, ⟨h1, rfl⟩, _, _, ⟨h2, rfl⟩, _, rfl, h⟩ := h
      cases h
      refine ⟨1, one, ?_⟩
      simpa using Spec.SessionWire.env h1 h2
    replace h := ite_or h
    rcases h with ⟨hty, h⟩ | ⟨-, h⟩
    · subst hty
      simp only [bind_eq_ok, guardE_eq_ok, List.isEmpty_iff] at h
      obtain ⟨_, rfl, h⟩ := h
      cases h
      exact ⟨1, one, Spec.SessionWire.shell⟩
    replace h := ite_or h
    rcases h with ⟨hty, h⟩ | ⟨-, h⟩
    · subst hty
      simp only [bind_eq_ok, okOr_eq_ok, Prod.exists, parseString_eq_ok,
        guardE_eq_ok, List.isEmpty_iff] at h
      obtain ⟨_, _, ⟨h1, rfl⟩, _, rfl, h⟩ := h
      cases h
      refine ⟨1, one, ?_⟩
      simpa using Spec.SessionWire.exec h1
    replace h := ite_or h
    rcases h with ⟨hty, h⟩ | ⟨-, h⟩
    · subst hty
      simp only [bind_eq_ok, okOr_eq_ok, Prod.exists, parseString_eq_ok,
        guardE_eq_ok, List.isEmpty_iff] at h
      obtain ⟨_, _, ⟨h1, rfl⟩, _, rfl, h⟩ := h
      cases h
      refine ⟨1, one, ?_⟩
      simpa using Spec.SessionWire.subsystem h1
    replace h := ite_or h
    rcases h with ⟨hty, h⟩ | ⟨-, h⟩
    · subst hty
      simp only [bind_eq_ok, okOr_eq_ok, Prod.exists, parseUint32_eq_ok,
        guardE_eq_ok, List.isEmpty_iff] at h
      obtain ⟨_, _, rfl, _, _, rfl, _, _, rfl, _, _, rfl, _, rfl, h⟩ := h
      cases h
      refine ⟨1, one, ?_⟩
      simpa using Spec.SessionWire.windowChange (t := 1)
    replace h := ite_or h
    rcases h with ⟨hty, h⟩ | ⟨-, h⟩
    · subst hty
      simp only [bind_eq_ok, okOr_eq_ok, Prod.exists, guardE_eq_ok, List.isEmpty_iff,
        parseBool_eq_ok] at h
      obtain ⟨_, _, ⟨a, rfl, rfl⟩, _, rfl, h⟩ := h
      cases h
      obtain ⟨t, ht, he⟩ := bool_eq_of_byte a
      exact ⟨t, ht, he ▸ Spec.SessionWire.xonXoff⟩
    replace h := ite_or h
    rcases h with ⟨hty, h⟩ | ⟨-, h⟩
    · subst hty
      simp only [bind_eq_ok, okOr_eq_ok, Prod.exists, parseString_eq_ok,
        guardE_eq_ok, List.isEmpty_iff] at h
      obtain ⟨n, _, ⟨h1, rfl⟩, _, rfl, h⟩ := h
      cases h
      refine ⟨1, one, ?_⟩
      simpa using Spec.SessionWire.signal (t := 1) ((Signal.ofName_iff n _).mp rfl) h1
    replace h := ite_or h
    rcases h with ⟨hty, h⟩ | ⟨-, h⟩
    · subst hty
      simp only [bind_eq_ok, okOr_eq_ok, Prod.exists, parseUint32_eq_ok,
        guardE_eq_ok, List.isEmpty_iff] at h
      obtain ⟨_, _, rfl, _, rfl, h⟩ := h
      cases h
      refine ⟨1, one, ?_⟩
      simpa using Spec.SessionWire.exitStatus (t := 1)
    replace h := ite_or h
    rcases h with ⟨hty, h⟩ | ⟨-, h⟩
    · subst hty
      simp only [bind_eq_ok, okOr_eq_ok, Prod.exists, parseString_eq_ok,
        guardE_eq_ok, List.isEmpty_iff, parseBool_eq_ok, fromUtf8_eq_ok] at h
      obtain ⟨n, _, ⟨h1, rfl⟩, _, _, ⟨a, rfl, rfl⟩, _, _, ⟨h2, rfl⟩, _, _, ⟨h3, rfl⟩, _, rfl, _,
        ⟨h4, rfl⟩, h⟩ := h
      cases h
      obtain ⟨t, ht, he⟩ := bool_eq_of_byte a
      refine ⟨t, ht, ?_⟩
      have := Spec.SessionWire.exitSignal (t := t) (core := a != 0)
        ((Signal.ofName_iff n _).mp rfl) h1 h2 h3 h4
      rw [← he] at this
      simpa using this
    cases h
  · rintro ⟨t, ht, h⟩
    unfold SessionRequest.parse
    cases h with
    | pty h1 h2 =>
      simp [parseString_str_cons h1, parseString_str_nil h2, parseUint32_u32, guardE_nil]
    | x11 h1 h2 =>
      simp [parseString_str_cons h1, parseString_str_cons h2, parseUint32_u32_nil,
        parseBool_boolT ht, guardE_nil]
    | env h1 h2 => simp [parseString_str_cons h1, parseString_str_nil h2, guardE_nil]
    | shell => simp [guardE_nil]
    | exec h1 => simp [parseString_str_nil h1, guardE_nil]
    | subsystem h1 => simp [parseString_str_nil h1, guardE_nil]
    | windowChange => simp [parseUint32_u32, parseUint32_u32_nil, guardE_nil]
    | xonXoff => simp [parseBool_boolT_nil ht, guardE_nil]
    | signal h1 h2 =>
      simp [parseString_str_nil h2, guardE_nil, (Signal.ofName_iff _ _).mpr h1]
    | exitStatus => simp [parseUint32_u32_nil, guardE_nil]
    | exitSignal h1 h2 h3 h4 h5 =>
      simp [parseString_str_cons h2, parseString_str_cons h3, parseString_str_nil h4, guardE_nil,
        (Signal.ofName_iff _ _).mpr h1, parseBool_boolT ht, fromUtf8_eq_ok.mpr ⟨h5, rfl⟩]

theorem SessionRequest.parse_ne_panic {ty data : Bytes} : SessionRequest.parse ty data ≠ panic := by
  intro h
  unfold SessionRequest.parse at h
  iterate 11
    rcases ite_or h with ⟨_, h⟩ | ⟨_, h⟩
    · simp [parseString_ne_panic, parseUint32_ne_panic, parseBool_ne_panic, fromUtf8_ne_panic] at h
  cases h

/-- what the session request serialiser writes -/
theorem SessionRequest.serialize_eq {r : SessionRequest} {ty data : Bytes}
    (h : Spec.SessionWire 1 r ty data) (buf : Bytes) :
    r.serialize buf = if data.length ≤ buf.length then
      ok (ty, data.length, data ++ buf.drop data.length) else err () := by
  cases h with
  | pty h1 h2 =>
    simp only [SessionRequest.serialize, makeString2_eq h1, makeString2_eq h2, makeUint32_eq]
    fill_tac
  | x11 h1 h2 =>
    simp only [SessionRequest.serialize, makeString2_eq h1, makeString2_eq h2, makeUint32_eq,
      makeBool_eq]
    fill_tac
  | env h1 h2 =>
    simp only [SessionRequest.serialize, makeString2_eq h1, makeString2_eq h2]
    fill_tac
  | shell => simp [SessionRequest.serialize]
  | exec h1 =>
    simp only [SessionRequest.serialize, makeString2_eq h1]
    fill_tac
  | subsystem h1 =>
    simp only [SessionRequest.serialize, makeString2_eq h1]
    fill_tac
  | windowChange =>
    simp only [SessionRequest.serialize, makeUint32_eq]
    fill_tac
  | xonXoff =>
    simp only [SessionRequest.serialize, makeBool_eq]
    fill_tac
  | signal h1 h2 =>
    simp only [SessionRequest.serialize, Signal.name_of_signalName h1, makeString2_eq h2]
    fill_tac
  | exitStatus =>
    simp only [SessionRequest.serialize, makeUint32_eq]
    fill_tac
  | exitSignal h1 h2 h3 h4 _ =>
    simp only [SessionRequest.serialize, Signal.name_of_signalName h1, makeString2_eq h2,
      makeString2_eq h3, makeString2_eq h4, makeBool_eq]
    fill_tac

end Nora
