import Verif.Spec.ParseError
import Verif.Lemmas.MsgTop
/-
Errors of the message parsers.
-/
set_option linter.unusedSimpArgs false

namespace Nora
open R
open Spec (Field Fields Short Whole)

/-! ### fields -/

theorem Spec.Field.inj {f : Field} {v v' r r' : Bytes} (h : f.Ok v) (h' : f.Ok v')
    (he : f.bytes v ++ r = f.bytes v' ++ r') : v = v' ∧ r = r' := by
  cases f with
  | raw n => exact List.append_inj he ((show v.length = n from h).trans (show v'.length = n from h').symm)
  | str =>
    have h1 := parseString_str_cons (r := r) h
    have h2 := parseString_str_cons (r := r') h'
    rw [show Spec.str v ++ r = Spec.str v' ++ r' from he, h2] at h1
    cases h1
    exact ⟨rfl, rfl⟩

theorem Spec.Field.some (f : Field) : ∃ v, f.Ok v := by
  cases f with
  | raw n => exact ⟨List.replicate n 0, List.length_replicate ..⟩
  | str => exact ⟨[], show ([] : Bytes).length < 4294967296 by decide⟩

theorem Spec.Fields.some (fs : List Field) : ∃ vs b, Fields fs vs b := by
  induction fs with
  | nil => exact ⟨_, _, .nil⟩
  | cons f fs ih =>
    obtain ⟨v, hv⟩ := f.some
    obtain ⟨vs, b, h⟩ := ih
    exact ⟨_, _, .cons hv h⟩

theorem Spec.Short.one {f : Field} {d : Bytes} : Short [f] d ↔ ∃ t v, t ≠ [] ∧ f.Ok v ∧ d ++ t = f.bytes v := by
  constructor
  · rintro ⟨t, vs, ht, h⟩
    generalize hb : d ++ t = b at h
    cases h with
    | cons hv h =>
      cases h with
      | nil => exact ⟨t, _, ht, hv, by rw [hb, List.append_nil]⟩
  · rintro ⟨t, v, ht, hv, he⟩
    refine ⟨t, [v], ht, ?_⟩
    rw [he, ← List.append_nil (f.bytes v)]
    exact .cons hv .nil

theorem short_nil {d : Bytes} : Short [] d ↔ False := by
  constructor
  · rintro ⟨t, vs, ht, h⟩
    generalize hb : d ++ t = b at h
    cases h with
    | nil => exact ht (List.append_eq_nil_iff.mp hb).2
  · exact False.elim

theorem whole_nil {vs : List Bytes} {rest d : Bytes} : Whole [] vs rest d ↔ vs = [] ∧ rest = d := by
  constructor
  · rintro ⟨b, h, rfl⟩
    cases h
    exact ⟨rfl, rfl⟩
  · rintro ⟨rfl, rfl⟩
    exact ⟨[], .nil, rfl⟩

theorem short_of {f : Field} {fs : List Field} {d : Bytes} (h : Short [f] d) : Short (f :: fs) d ↔ True := by
  obtain ⟨t, v, ht, hv, he⟩ := Spec.Short.one.mp h
  obtain ⟨vs, b, hb⟩ := Spec.Fields.some fs
  refine iff_true_intro ⟨t ++ b, v :: vs, by simp [ht], ?_⟩
  rw [← List.append_assoc, he]
  exact .cons hv hb

theorem whole_of {f : Field} {fs : List Field} {vs : List Bytes} {rest d : Bytes} (h : Short [f] d) :
    Whole (f :: fs) vs rest d ↔ False := by
  refine iff_false_intro ?_
  rintro ⟨b, hb, rfl⟩
  obtain ⟨t, v, ht, hv, he⟩ := Spec.Short.one.mp h
  cases hb with
  | cons hv' hb =>
    rename_i _ _ b
    have h1 := (Spec.Field.inj (r := []) (r' := b ++ (rest ++ t)) hv hv'
      (by rw [← he]; simp only [List.append_nil, List.append_assoc])).2
    simp [ht] at h1

theorem short_cons {f : Field} {fs : List Field} {v r : Bytes} (hv : f.Ok v) :
    Short (f :: fs) (f.bytes v ++ r) ↔ Short fs r := by
  constructor
  · rintro ⟨t, vs, ht, h⟩
    generalize hb : f.bytes v ++ r ++ t = b at h
    cases h with
    | cons hv' h =>
      rw [List.append_assoc] at hb
      obtain ⟨rfl, rfl⟩ := Spec.Field.inj hv hv' hb
      exact ⟨t, _, ht, h⟩
  · rintro ⟨t, vs, ht, h⟩
    exact ⟨t, v :: vs, ht, by rw [List.append_assoc]; exact .cons hv h⟩

theorem whole_cons {f : Field} {fs : List Field} {vs : List Bytes} {v r rest : Bytes} (hv : f.Ok v) :
    Whole (f :: fs) vs rest (f.bytes v ++ r) ↔ ∃ vs', vs = v :: vs' ∧ Whole fs vs' rest r := by
  constructor
  · rintro ⟨b, h, he⟩
    cases h with
    | cons hv' h =>
      rw [List.append_assoc] at he
      obtain ⟨rfl, rfl⟩ := Spec.Field.inj hv hv' he
      exact ⟨_, rfl, _, h, rfl⟩
  · rintro ⟨vs', rfl, b, h, rfl⟩
    exact ⟨_, .cons hv h, by rw [List.append_assoc]⟩

/-- each field is complete or not -/
theorem field_cases (f : Field) (d : Bytes) : Short [f] d ∨ ∃ v r, f.Ok v ∧ d = f.bytes v ++ r := by
  cases f with
  | raw n =>
    by_cases h : n ≤ d.length
    · exact .inr ⟨d.take n, d.drop n, List.length_take_of_le h, (List.take_append_drop n d).symm⟩
    · refine .inl (Spec.Short.one.mpr ⟨List.replicate (n - d.length) 0, d ++ List.replicate (n - d.length) 0, ?_, ?_, rfl⟩)
      · intro h0
        have := congrArg List.length h0
        simp at this
        omega
      · show (d ++ List.replicate (n - d.length) 0).length = n
        simp
        omega
  | str =>
    by_cases h : 4 ≤ d.length
    · obtain ⟨x, hx⟩ := exists_u32 (List.length_take_of_le h)
      have hd : d = Spec.u32 x.toNat ++ d.drop 4 := by rw [← hx, List.take_append_drop]
      generalize d.drop 4 = r at hd
      have hlt := x.toNat_lt
      by_cases h2 : x.toNat ≤ r.length
      · refine .inr ⟨r.take x.toNat, r.drop x.toNat, ?_, ?_⟩
        · show (r.take x.toNat).length < _
          rw [List.length_take_of_le h2]
          exact hlt
        · show d = Spec.u32 (r.take x.toNat).length ++ r.take x.toNat ++ r.drop x.toNat
          rw [List.length_take_of_le h2, List.append_assoc, List.take_append_drop, hd]
      · refine .inl (Spec.Short.one.mpr ⟨List.replicate (x.toNat - r.length) 0,
          r ++ List.replicate (x.toNat - r.length) 0, ?_, ?_, ?_⟩)
        · intro h0
          have := congrArg List.length h0
          simp at this
          omega
        · show List.length _ < _
          simp
          omega
        · show _ = Spec.u32 (List.length _) ++ _
          rw [hd, List.append_assoc]
          congr 2
          simp
          omega
    · obtain ⟨x, hx⟩ := exists_u32 (s := d ++ List.replicate (4 - d.length) 0) (by simp; omega)
      refine .inl (Spec.Short.one.mpr ⟨List.replicate (4 - d.length) 0 ++ List.replicate x.toNat 0,
        List.replicate x.toNat 0, ?_, ?_, ?_⟩)
      · intro h0
        have := congrArg List.length h0
        simp at this
        omega
      · show List.length _ < _
        rw [List.length_replicate]
        exact x.toNat_lt
      · show _ = Spec.u32 (List.length _) ++ _
        rw [← List.append_assoc, hx, List.length_replicate]

/-! the same for strings and for some number of bytes -/

theorem short_str {fs : List Field} {v r : Bytes} (hv : Spec.Fits v) :
    Short (.str :: fs) (Spec.str v ++ r) ↔ Short fs r := short_cons (f := .str) hv

theorem whole_str {fs : List Field} {vs : List Bytes} {v r rest : Bytes} (hv : Spec.Fits v) :
    Whole (.str :: fs) vs rest (Spec.str v ++ r) ↔ ∃ vs', vs = v :: vs' ∧ Whole fs vs' rest r :=
  whole_cons (f := .str) hv

theorem short_raw {fs : List Field} {v r : Bytes} {n : Nat} (hv : v.length = n) :
    Short (.raw n :: fs) (v ++ r) ↔ Short fs r := short_cons (f := .raw n) hv

theorem whole_raw {fs : List Field} {vs : List Bytes} {v r rest : Bytes} {n : Nat} (hv : v.length = n) :
    Whole (.raw n :: fs) vs rest (v ++ r) ↔ ∃ vs', vs = v :: vs' ∧ Whole fs vs' rest r :=
  whole_cons (f := .raw n) hv

/-! the same, when the contents are named or when they do not matter -/

theorem named_cons {f : Field} {fs : List Field} {vs : List Bytes} {v w r rest : Bytes} (hv : f.Ok v) :
    Whole (f :: fs) (w :: vs) rest (f.bytes v ++ r) ↔ w = v ∧ Whole fs vs rest r := by
  rw [whole_cons hv]
  constructor
  · rintro ⟨vs', he, h⟩
    cases he
    exact ⟨rfl, h⟩
  · rintro ⟨rfl, h⟩
    exact ⟨_, rfl, h⟩

theorem named_nil {rest d : Bytes} : Whole [] [] rest d ↔ rest = d := by
  rw [whole_nil]
  exact ⟨fun h => h.2, fun h => ⟨rfl, h⟩⟩

theorem long_cons {f : Field} {fs : List Field} {v r : Bytes} {Q : Bytes → Prop} (hv : f.Ok v) :
    (∃ vs rest, Whole (f :: fs) vs rest (f.bytes v ++ r) ∧ Q rest) ↔ ∃ vs rest, Whole fs vs rest r ∧ Q rest := by
  constructor
  · rintro ⟨vs, rest, h, hq⟩
    obtain ⟨vs', rfl, hw⟩ := (whole_cons hv).mp h
    exact ⟨vs', rest, hw, hq⟩
  · rintro ⟨vs, rest, h, hq⟩
    exact ⟨_, rest, (whole_cons hv).mpr ⟨vs, rfl, h⟩, hq⟩

theorem long_nil {d : Bytes} {Q : Bytes → Prop} : (∃ vs rest, Whole [] vs rest d ∧ Q rest) ↔ Q d := by
  constructor
  · rintro ⟨vs, rest, h, hq⟩
    rw [← (whole_nil.mp h).2]
    exact hq
  · intro hq
    exact ⟨[], d, whole_nil.mpr ⟨rfl, rfl⟩, hq⟩

theorem named_str {fs : List Field} {vs : List Bytes} {v w r rest : Bytes} (hv : Spec.Fits v) :
    Whole (.str :: fs) (w :: vs) rest (Spec.str v ++ r) ↔ w = v ∧ Whole fs vs rest r := named_cons (f := .str) hv

theorem named_raw {fs : List Field} {vs : List Bytes} {v w r rest : Bytes} {n : Nat} (hv : v.length = n) :
    Whole (.raw n :: fs) (w :: vs) rest (v ++ r) ↔ w = v ∧ Whole fs vs rest r := named_cons (f := .raw n) hv

theorem long_str {fs : List Field} {v r : Bytes} {Q : Bytes → Prop} (hv : Spec.Fits v) :
    (∃ vs rest, Whole (.str :: fs) vs rest (Spec.str v ++ r) ∧ Q rest) ↔ ∃ vs rest, Whole fs vs rest r ∧ Q rest :=
  long_cons (f := .str) hv

theorem long_raw {fs : List Field} {v r : Bytes} {n : Nat} {Q : Bytes → Prop} (hv : v.length = n) :
    (∃ vs rest, Whole (.raw n :: fs) vs rest (v ++ r) ∧ Q rest) ↔ ∃ vs rest, Whole fs vs rest r ∧ Q rest :=
  long_cons (f := .raw n) hv

theorem short_raw_iff {n : Nat} {d : Bytes} : Short [.raw n] d ↔ d.length < n := by
  constructor
  · intro h
    obtain ⟨t, v, ht, hv, he⟩ := Spec.Short.one.mp h
    have : (d ++ t).length = n := (congrArg List.length he).trans hv
    rw [List.length_append] at this
    have := List.length_pos_iff.mpr ht
    omega
  · intro h
    rcases field_cases (.raw n) d with h1 | ⟨v, r, hv, rfl⟩
    · exact h1
    · have hv : v.length = n := hv
      have : (v ++ r).length < n := h
      rw [List.length_append] at this
      omega

theorem strCases (d : Bytes) : (Short [.str] d ∧ parseString d = err ()) ∨
    ∃ v r, Spec.Fits v ∧ d = Spec.str v ++ r ∧ parseString (Spec.str v ++ r) = ok (v, r) := by
  rcases field_cases .str d with h | ⟨v, r, hv, rfl⟩
  · refine .inl ⟨h, ?_⟩
    cases hp : parseString d with
    | err e => rfl
    | panic => exact absurd hp parseString_ne_panic
    | ok x =>
      obtain ⟨v, r⟩ := x
      obtain ⟨hv, rfl⟩ := parseString_eq_ok.mp hp
      exact absurd ((whole_of (fs := []) h).mp ((whole_str hv).mpr ⟨[], rfl, whole_nil.mpr ⟨rfl, rfl⟩⟩)) id
  · exact .inr ⟨v, r, hv, rfl, parseString_str_cons hv⟩

theorem u32Cases (d : Bytes) : (Short [.raw 4] d ∧ parseUint32 d = err ()) ∨
    ∃ v r x, v.length = 4 ∧ d = v ++ r ∧ parseUint32 (v ++ r) = ok (x, r) := by
  rcases field_cases (.raw 4) d with h | ⟨v, r, hv, rfl⟩
  · refine .inl ⟨h, ?_⟩
    have := short_raw_iff.mp h
    rw [parseUint32, if_neg (by omega)]
  · obtain ⟨x, rfl⟩ := exists_u32 hv
    exact .inr ⟨_, r, x, hv, rfl, parseUint32_u32⟩

theorem boolCases (d : Bytes) : (Short [.raw 1] d ∧ parseBool d = err ()) ∨
    ∃ v r x, v.length = 1 ∧ d = v ++ r ∧ parseBool (v ++ r) = ok (x, r) := by
  cases d with
  | nil => exact .inl ⟨short_raw_iff.mpr (by decide), rfl⟩
  | cons a d => exact .inr ⟨[a], d, a != 0, rfl, rfl, parseBool_eq_ok.mpr ⟨a, rfl, rfl⟩⟩

theorem splitCases (n : Nat) (d : Bytes) : (Short [.raw n] d ∧ split d n = err ()) ∨
    ∃ v r, v.length = n ∧ d = v ++ r ∧ split (v ++ r) n = ok (v, r) := by
  rcases field_cases (.raw n) d with h | ⟨v, r, hv, rfl⟩
  · refine .inl ⟨h, ?_⟩
    have := short_raw_iff.mp h
    rw [split, if_neg (by omega)]
  · exact .inr ⟨v, r, hv, rfl, split_eq_ok.mpr ⟨hv, rfl⟩⟩

theorem utf8Cases (s : Bytes) : (Spec.Utf8 s ∧ Utf8.fromUtf8 s = ok s) ∨ (¬ Spec.Utf8 s ∧ Utf8.fromUtf8 s = err ()) := by
  by_cases h : Spec.Utf8 s
  · exact .inl ⟨h, fromUtf8_eq_ok.mpr ⟨h, rfl⟩⟩
  · refine .inr ⟨h, ?_⟩
    cases hp : Utf8.fromUtf8 s with
    | err e => rfl
    | panic => exact absurd hp fromUtf8_ne_panic
    | ok x => exact absurd (fromUtf8_eq_ok.mp hp).1 h

theorem asciiCases (s : Bytes) :
    (Spec.Ascii s ∧ AsciiStr.tryFrom s = ok s) ∨ (¬ Spec.Ascii s ∧ AsciiStr.tryFrom s = err ()) := by
  by_cases h : Spec.Ascii s
  · exact .inl ⟨h, AsciiStr.tryFrom_eq_ok.mpr ⟨h, rfl⟩⟩
  · refine .inr ⟨h, ?_⟩
    cases hp : AsciiStr.tryFrom s with
    | err e => rfl
    | panic => exact absurd hp AsciiStr.tryFrom_ne_panic
    | ok x => exact absurd (AsciiStr.tryFrom_eq_ok.mp hp).1 h

theorem namesCases (s : Bytes) : (Spec.NameListOk s ∧ NameList.tryFrom s = ok ⟨s⟩) ∨
    ∃ e, Spec.BadNames s e ∧ NameList.tryFrom s = err e := by
  by_cases h : Spec.NameListOk s
  · exact .inl ⟨h, NameList.tryFrom_eq_ok.mpr ⟨h, rfl⟩⟩
  · refine .inr ⟨_, ⟨h, rfl⟩, ?_⟩
    cases hp : NameList.tryFrom s with
    | panic => exact absurd hp NameList.tryFrom_ne_panic
    | ok x => exact absurd (NameList.tryFrom_eq_ok.mp hp).1 h
    | err e =>
      unfold NameList.tryFrom at hp
      by_cases ha : Spec.Ascii s
      · rw [if_pos ha]
        rw [isAscii_iff.mpr ha] at hp
        simp only [Bool.not_true, Bool.false_eq_true, if_false, Utf8.fromUtf8, Utf8.valid_of_ascii ha, if_true,
          ok_unwrap, ok_map] at hp
        split_ifs at hp <;> simpa using hp.symm
      · rw [if_neg ha]
        have : Utf8.isAscii s = false := by
          cases hi : Utf8.isAscii s with
          | false => rfl
          | true => exact absurd (isAscii_iff.mp hi) ha
        simp only [this, Bool.not_false, if_true] at hp
        simpa using hp.symm

theorem badNames_unique {s : Bytes} {e e' : InvalidNameList} (h : Spec.BadNames s e) (h' : Spec.BadNames s e') :
    e = e' := h.2.trans h'.2.symm

/-! ### messages -/

theorem Msg.Ignore.parse_err {d : Bytes} {e} : Msg.Ignore.parse d = err e ↔ Spec.Misfit [.str] .truncated .unread d e := by
  unfold Msg.Ignore.parse Spec.Misfit
  rcases strCases d with ⟨s0, p0⟩ | ⟨v0, r0, h0, rfl, p0⟩
  · simp [p0, s0, short_of s0, whole_of s0, ok_okOr, err_okOr, ok_bind, err_bind, short_nil, named_nil, long_nil, guardE, @eq_comm _ e]
  simp only [p0, short_str h0, named_str h0, long_str h0, ok_okOr, err_okOr, ok_bind, err_bind, short_nil, named_nil, long_nil, guardE]
  cases r0 <;> simp [@eq_comm _ e]

theorem Msg.Unimplemented.parse_err {d : Bytes} {e} : Msg.Unimplemented.parse d = err e ↔ Spec.Misfit [.raw 4] .truncated .unread d e := by
  unfold Msg.Unimplemented.parse Spec.Misfit
  rcases u32Cases d with ⟨s0, p0⟩ | ⟨v0, r0, x0, h0, rfl, p0⟩
  · simp [p0, s0, short_of s0, whole_of s0, ok_okOr, err_okOr, ok_bind, err_bind, short_nil, named_nil, long_nil, guardE, @eq_comm _ e]
  simp only [p0, short_raw h0, named_raw h0, long_raw h0, ok_okOr, err_okOr, ok_bind, err_bind, short_nil, named_nil, long_nil, guardE]
  cases r0 <;> simp [@eq_comm _ e]

theorem Msg.Service.parse_err {d : Bytes} {e} : Msg.Service.parse d = err e ↔ Spec.Misfit [.str] .badLength .badLength d e := by
  unfold Msg.Service.parse Spec.Misfit
  rcases strCases d with ⟨s0, p0⟩ | ⟨v0, r0, h0, rfl, p0⟩
  · simp [p0, s0, short_of s0, whole_of s0, ok_okOr, err_okOr, ok_bind, err_bind, short_nil, named_nil, long_nil, guardE, @eq_comm _ e]
  simp only [p0, short_str h0, named_str h0, long_str h0, ok_okOr, err_okOr, ok_bind, err_bind, short_nil, named_nil, long_nil, guardE]
  cases r0 <;> simp [@eq_comm _ e]

theorem Kex.EcdhInit.parse_err {d : Bytes} {e} : Kex.EcdhInit.parse d = err e ↔ Spec.Misfit [.str] .truncated .unread d e := by
  unfold Kex.EcdhInit.parse Spec.Misfit
  rcases strCases d with ⟨s0, p0⟩ | ⟨v0, r0, h0, rfl, p0⟩
  · simp [p0, s0, short_of s0, whole_of s0, ok_okOr, err_okOr, ok_bind, err_bind, short_nil, named_nil, long_nil, guardE, @eq_comm _ e]
  simp only [p0, short_str h0, named_str h0, long_str h0, ok_okOr, err_okOr, ok_bind, err_bind, short_nil, named_nil, long_nil, guardE]
  cases r0 <;> simp [@eq_comm _ e]

theorem Auth.Banner.parse_err {d : Bytes} {e} : Auth.Banner.parse d = err e ↔ Spec.Misfit [.str, .str] .truncated .unread d e := by
  unfold Auth.Banner.parse Spec.Misfit
  rcases strCases d with ⟨s0, p0⟩ | ⟨v0, r0, h0, rfl, p0⟩
  · simp [p0, s0, short_of s0, whole_of s0, ok_okOr, err_okOr, ok_bind, err_bind, short_nil, named_nil, long_nil, guardE, @eq_comm _ e]
  rcases strCases r0 with ⟨s1, p1⟩ | ⟨v1, r1, h1, rfl, p1⟩
  · simp [p0, short_str h0, named_str h0, long_str h0, p1, s1, short_of s1, whole_of s1, ok_okOr, err_okOr, ok_bind, err_bind, short_nil, named_nil, long_nil, guardE, @eq_comm _ e]
  simp only [p0, short_str h0, named_str h0, long_str h0, p1, short_str h1, named_str h1, long_str h1, ok_okOr, err_okOr, ok_bind, err_bind, short_nil, named_nil, long_nil, guardE]
  cases r1 <;> simp [@eq_comm _ e]

theorem Auth.PublicKeyOk.parse_err {d : Bytes} {e} : Auth.PublicKeyOk.parse d = err e ↔ Spec.Misfit [.str, .str] .truncated .unread d e := by
  unfold Auth.PublicKeyOk.parse Spec.Misfit
  rcases strCases d with ⟨s0, p0⟩ | ⟨v0, r0, h0, rfl, p0⟩
  · simp [p0, s0, short_of s0, whole_of s0, ok_okOr, err_okOr, ok_bind, err_bind, short_nil, named_nil, long_nil, guardE, @eq_comm _ e]
  rcases strCases r0 with ⟨s1, p1⟩ | ⟨v1, r1, h1, rfl, p1⟩
  · simp [p0, short_str h0, named_str h0, long_str h0, p1, s1, short_of s1, whole_of s1, ok_okOr, err_okOr, ok_bind, err_bind, short_nil, named_nil, long_nil, guardE, @eq_comm _ e]
  simp only [p0, short_str h0, named_str h0, long_str h0, p1, short_str h1, named_str h1, long_str h1, ok_okOr, err_okOr, ok_bind, err_bind, short_nil, named_nil, long_nil, guardE]
  cases r1 <;> simp [@eq_comm _ e]

theorem Chan.WindowAdjust.parse_err {d : Bytes} {e} : Chan.WindowAdjust.parse d = err e ↔ Spec.Misfit [.raw 4, .raw 4] .truncated .unread d e := by
  unfold Chan.WindowAdjust.parse Spec.Misfit
  rcases u32Cases d with ⟨s0, p0⟩ | ⟨v0, r0, x0, h0, rfl, p0⟩
  · simp [p0, s0, short_of s0, whole_of s0, ok_okOr, err_okOr, ok_bind, err_bind, short_nil, named_nil, long_nil, guardE, @eq_comm _ e]
  rcases u32Cases r0 with ⟨s1, p1⟩ | ⟨v1, r1, x1, h1, rfl, p1⟩
  · simp [p0, short_raw h0, named_raw h0, long_raw h0, p1, s1, short_of s1, whole_of s1, ok_okOr, err_okOr, ok_bind, err_bind, short_nil, named_nil, long_nil, guardE, @eq_comm _ e]
  simp only [p0, short_raw h0, named_raw h0, long_raw h0, p1, short_raw h1, named_raw h1, long_raw h1, ok_okOr, err_okOr, ok_bind, err_bind, short_nil, named_nil, long_nil, guardE]
  cases r1 <;> simp [@eq_comm _ e]

theorem Chan.Data.parse_err {d : Bytes} {e} : Chan.Data.parse d = err e ↔ Spec.Misfit [.raw 4, .str] .truncated .unread d e := by
  unfold Chan.Data.parse Spec.Misfit
  rcases u32Cases d with ⟨s0, p0⟩ | ⟨v0, r0, x0, h0, rfl, p0⟩
  · simp [p0, s0, short_of s0, whole_of s0, ok_okOr, err_okOr, ok_bind, err_bind, short_nil, named_nil, long_nil, guardE, @eq_comm _ e]
  rcases strCases r0 with ⟨s1, p1⟩ | ⟨v1, r1, h1, rfl, p1⟩
  · simp [p0, short_raw h0, named_raw h0, long_raw h0, p1, s1, short_of s1, whole_of s1, ok_okOr, err_okOr, ok_bind, err_bind, short_nil, named_nil, long_nil, guardE, @eq_comm _ e]
  simp only [p0, short_raw h0, named_raw h0, long_raw h0, p1, short_str h1, named_str h1, long_str h1, ok_okOr, err_okOr, ok_bind, err_bind, short_nil, named_nil, long_nil, guardE]
  cases r1 <;> simp [@eq_comm _ e]

theorem Chan.ExtendedData.parse_err {d : Bytes} {e} : Chan.ExtendedData.parse d = err e ↔ Spec.Misfit [.raw 4, .raw 4, .str] .truncated .unread d e := by
  unfold Chan.ExtendedData.parse Spec.Misfit
  rcases u32Cases d with ⟨s0, p0⟩ | ⟨v0, r0, x0, h0, rfl, p0⟩
  · simp [p0, s0, short_of s0, whole_of s0, ok_okOr, err_okOr, ok_bind, err_bind, short_nil, named_nil, long_nil, guardE, @eq_comm _ e]
  rcases u32Cases r0 with ⟨s1, p1⟩ | ⟨v1, r1, x1, h1, rfl, p1⟩
  · simp [p0, short_raw h0, named_raw h0, long_raw h0, p1, s1, short_of s1, whole_of s1, ok_okOr, err_okOr, ok_bind, err_bind, short_nil, named_nil, long_nil, guardE, @eq_comm _ e]
  rcases strCases r1 with ⟨s2, p2⟩ | ⟨v2, r2, h2, rfl, p2⟩
  · simp [p0, short_raw h0, named_raw h0, long_raw h0, p1, short_raw h1, named_raw h1, long_raw h1, p2, s2, short_of s2, whole_of s2, ok_okOr, err_okOr, ok_bind, err_bind, short_nil, named_nil, long_nil, guardE, @eq_comm _ e]
  simp only [p0, short_raw h0, named_raw h0, long_raw h0, p1, short_raw h1, named_raw h1, long_raw h1, p2, short_str h2, named_str h2, long_str h2, ok_okOr, err_okOr, ok_bind, err_bind, short_nil, named_nil, long_nil, guardE]
  cases r2 <;> simp [@eq_comm _ e]

theorem Msg.Debug.parse_err {d : Bytes} {e} : Msg.Debug.parse d = err e ↔
    (Short [.raw 1, .str, .str] d ∧ e = .truncated) ∨
    (∃ a m l rest, Whole [.raw 1, .str, .str] [a, m, l] rest d ∧ ¬ Spec.Utf8 m ∧ e = .invalidUtf8) ∨
    ∃ a m l rest, Whole [.raw 1, .str, .str] [a, m, l] rest d ∧ Spec.Utf8 m ∧ rest ≠ [] ∧ e = .unread := by
  unfold Msg.Debug.parse
  rcases boolCases d with ⟨s0, p0⟩ | ⟨v0, r0, x0, h0, rfl, p0⟩
  · simp [p0, s0, short_of s0, whole_of s0, ok_okOr, err_okOr, ok_bind, err_bind, short_nil, named_nil, long_nil, guardE, @eq_comm _ e]
  rcases strCases r0 with ⟨s1, p1⟩ | ⟨v1, r1, h1, rfl, p1⟩
  · simp [p0, short_raw h0, named_raw h0, long_raw h0, p1, s1, short_of s1, whole_of s1, ok_okOr, err_okOr, ok_bind, err_bind, short_nil, named_nil, long_nil, guardE, @eq_comm _ e]
  rcases strCases r1 with ⟨s2, p2⟩ | ⟨v2, r2, h2, rfl, p2⟩
  · simp [p0, short_raw h0, named_raw h0, long_raw h0, p1, short_str h1, named_str h1, long_str h1, p2, s2, short_of s2, whole_of s2, ok_okOr, err_okOr, ok_bind, err_bind, short_nil, named_nil, long_nil, guardE, @eq_comm _ e]
  simp only [p0, short_raw h0, named_raw h0, long_raw h0, p1, short_str h1, named_str h1, long_str h1, p2, short_str h2, named_str h2, long_str h2, ok_okOr, err_okOr, ok_bind, err_bind, short_nil, named_nil, long_nil, guardE, and_assoc, exists_eq_left, exists_and_left]
  rcases utf8Cases v1 with ⟨u, hu⟩ | ⟨u, hu⟩ <;> cases r2 <;> simp [hu, u, ok_okOr, err_okOr, ok_bind, err_bind, short_nil, named_nil, long_nil, guardE, and_assoc] <;> exact eq_comm

theorem Chan.OpenFailure.parse_err {d : Bytes} {e} : Chan.OpenFailure.parse d = err e ↔
    Spec.Misfit [.raw 4, .raw 4, .str, .str] .truncated .unread d e ∨
    ∃ c r s l, Whole [.raw 4, .raw 4, .str, .str] [c, r, s, l] [] d ∧ ¬ Spec.Utf8 s ∧ e = .invalidUtf8 := by
  unfold Chan.OpenFailure.parse Spec.Misfit
  rcases u32Cases d with ⟨s0, p0⟩ | ⟨v0, r0, x0, h0, rfl, p0⟩
  · simp [p0, s0, short_of s0, whole_of s0, ok_okOr, err_okOr, ok_bind, err_bind, short_nil, named_nil, long_nil, guardE, @eq_comm _ e]
  rcases u32Cases r0 with ⟨s1, p1⟩ | ⟨v1, r1, x1, h1, rfl, p1⟩
  · simp [p0, short_raw h0, named_raw h0, long_raw h0, p1, s1, short_of s1, whole_of s1, ok_okOr, err_okOr, ok_bind, err_bind, short_nil, named_nil, long_nil, guardE, @eq_comm _ e]
  rcases strCases r1 with ⟨s2, p2⟩ | ⟨v2, r2, h2, rfl, p2⟩
  · simp [p0, short_raw h0, named_raw h0, long_raw h0, p1, short_raw h1, named_raw h1, long_raw h1, p2, s2, short_of s2, whole_of s2, ok_okOr, err_okOr, ok_bind, err_bind, short_nil, named_nil, long_nil, guardE, @eq_comm _ e]
  rcases strCases r2 with ⟨s3, p3⟩ | ⟨v3, r3, h3, rfl, p3⟩
  · simp [p0, short_raw h0, named_raw h0, long_raw h0, p1, short_raw h1, named_raw h1, long_raw h1, p2, short_str h2, named_str h2, long_str h2, p3, s3, short_of s3, whole_of s3, ok_okOr, err_okOr, ok_bind, err_bind, short_nil, named_nil, long_nil, guardE, @eq_comm _ e]
  simp only [p0, short_raw h0, named_raw h0, long_raw h0, p1, short_raw h1, named_raw h1, long_raw h1, p2, short_str h2, named_str h2, long_str h2, p3, short_str h3, named_str h3, long_str h3, ok_okOr, err_okOr, ok_bind, err_bind, short_nil, named_nil, long_nil, guardE, and_assoc, exists_eq_left, exists_and_left]
  rcases utf8Cases v2 with ⟨u, hu⟩ | ⟨u, hu⟩ <;> cases r3 <;> simp [hu, u, ok_okOr, err_okOr, ok_bind, err_bind, short_nil, named_nil, long_nil, guardE, and_assoc] <;> exact eq_comm

theorem getCases (d : Bytes) : (Short [.raw 4] d ∧ getTo d 4 = err ()) ∨
    ∃ v r x, v.length = 4 ∧ d = v ++ r ∧ getTo (v ++ r) 4 = ok v ∧ (∀ ε, (idxFrom (v ++ r) 4 : R ε Bytes) = ok r) ∧
      ∀ ε, (u32FromBe v : R ε UInt32) = ok x := by
  rcases field_cases (.raw 4) d with h | ⟨v, r, hv, rfl⟩
  · refine .inl ⟨h, ?_⟩
    have := short_raw_iff.mp h
    rw [getTo, if_neg (by omega)]
  · have hv : v.length = 4 := hv
    obtain ⟨x, hx⟩ := exists_u32 hv
    refine .inr ⟨v, r, x, hv, rfl, ?_, fun ε => ?_, fun ε => u32FromBe_eq_ok.mpr hx⟩
    · rw [getTo, if_pos (by rw [List.length_append]; omega), List.take_left' hv]
    · rw [idxFrom, if_pos (by rw [List.length_append]; omega), List.drop_left' hv]

theorem short_raws {ns : List Nat} {d : Bytes} : Short (ns.map .raw) d ↔ d.length < ns.sum := by
  induction ns generalizing d with
  | nil => simp [short_nil]
  | cons n ns ih =>
    rw [List.map_cons, List.sum_cons]
    rcases field_cases (.raw n) d with h | ⟨v, r, hv, rfl⟩
    · have := short_raw_iff.mp h
      rw [short_of h]
      exact iff_of_true trivial (by omega)
    · have hv' : v.length = n := hv
      rw [short_cons hv, ih]
      show _ ↔ (v ++ r).length < _
      rw [List.length_append]
      omega

theorem long_raws {ns : List Nat} {d : Bytes} {Q : Bytes → Prop} :
    (∃ vs rest, Whole (ns.map .raw) vs rest d ∧ Q rest) ↔ ns.sum ≤ d.length ∧ Q (d.drop ns.sum) := by
  induction ns generalizing d with
  | nil => simp [long_nil]
  | cons n ns ih =>
    rw [List.map_cons, List.sum_cons]
    rcases field_cases (.raw n) d with h | ⟨v, r, hv, rfl⟩
    · have := short_raw_iff.mp h
      simp only [whole_of h, false_and, exists_false]
      exact iff_of_false id (by omega)
    · have hv' : v.length = n := hv
      rw [long_cons hv, ih]
      show _ ↔ _ ≤ (v ++ r).length ∧ Q ((v ++ r).drop _)
      rw [List.length_append, ← List.drop_drop, List.drop_left' hv']
      exact and_congr_left fun _ => by omega

theorem Msg.Disconnect.parse_err {d : Bytes} {e} : Msg.Disconnect.parse d = err e ↔
    Spec.Misfit [.raw 4, .str, .str] .badLength .badLength d e := by
  unfold Msg.Disconnect.parse Spec.Misfit
  rcases getCases d with ⟨s0, p0⟩ | ⟨v0, r0, x0, h0, rfl, p0, q0, w0⟩
  · simp [p0, s0, short_of s0, whole_of s0, ok_okOr, err_okOr, ok_bind, err_bind, short_nil, named_nil, long_nil, guardE, @eq_comm _ e]
  rcases strCases r0 with ⟨s1, p1⟩ | ⟨v1, r1, h1, rfl, p1⟩
  · simp [p0, short_raw h0, named_raw h0, long_raw h0, p1, s1, short_of s1, whole_of s1, ok_okOr, err_okOr, ok_bind, err_bind, short_nil, named_nil, long_nil, guardE, q0, w0, @eq_comm _ e]
  rcases strCases r1 with ⟨s2, p2⟩ | ⟨v2, r2, h2, rfl, p2⟩
  · simp [p0, short_raw h0, named_raw h0, long_raw h0, p1, short_str h1, named_str h1, long_str h1, p2, s2, short_of s2, whole_of s2, ok_okOr, err_okOr, ok_bind, err_bind, short_nil, named_nil, long_nil, guardE, q0, w0, @eq_comm _ e]
  simp only [p0, short_raw h0, named_raw h0, long_raw h0, p1, short_str h1, named_str h1, long_str h1, p2, short_str h2, named_str h2, long_str h2, ok_okOr, err_okOr, ok_bind, err_bind, short_nil, named_nil, long_nil, guardE, q0, w0]
  cases r2 <;> simp [@eq_comm _ e]

theorem Chan.Open.parse_err {d : Bytes} {e} : Chan.Open.parse d = err e ↔
    Spec.Misfit [.str, .raw 4, .raw 4, .raw 4] .truncated .unread d e := by
  unfold Chan.Open.parse Spec.Misfit
  rcases strCases d with ⟨s0, p0⟩ | ⟨v0, r0, h0, rfl, p0⟩
  · simp [p0, s0, short_of s0, whole_of s0, ok_okOr, err_okOr, ok_bind, err_bind, short_nil, named_nil, long_nil, guardE, @eq_comm _ e]
  simp only [p0, short_str h0, named_str h0, long_str h0, ok_okOr, err_okOr, ok_bind, err_bind, short_nil, named_nil, long_nil, guardE]
  have hs : Short [.raw 4, .raw 4, .raw 4] r0 ↔ r0.length < 12 := short_raws (ns := [4, 4, 4])
  have hl : (∃ vs rest, Whole [.raw 4, .raw 4, .raw 4] vs rest r0 ∧ rest ≠ [] ∧ e = .unread) ↔
      12 ≤ r0.length ∧ r0.drop 12 ≠ [] ∧ e = .unread := long_raws (ns := [4, 4, 4])
  rw [hs, hl]
  by_cases a1 : r0.length < 12
  · rw [if_pos a1]
    simp [a1, Nat.not_le.mpr a1, @eq_comm _ e]
  rw [if_neg a1]
  by_cases a2 : r0.length > 12
  · rw [if_pos a2]
    simp [a1, a2, Nat.le_of_lt a2, @eq_comm _ e]
  rw [if_neg a2]
  have a3 : r0.length = 12 := by omega
  have q1 : (r0.take 4).length = 4 := by simp; omega
  have q2 : ((r0.take 8).drop 4).length = 4 := by simp; omega
  have q3 : (r0.drop 8).length = 4 := by simp; omega
  obtain ⟨x1, e1⟩ := exists_u32 q1
  obtain ⟨x2, e2⟩ := exists_u32 q2
  obtain ⟨x3, e3⟩ := exists_u32 q3
  simp only [idxTo, idxRange, idxFrom, a3, ok_bind, u32FromBe_eq_ok.mpr e1, u32FromBe_eq_ok.mpr e2,
    u32FromBe_eq_ok.mpr e3, Nat.le_refl, Nat.reduceLeDiff, if_true, and_self]
  simp [← a3]

theorem Chan.OpenConfirmation.parse_err {d : Bytes} {e} : Chan.OpenConfirmation.parse d = err e ↔
    Short [.raw 4, .raw 4, .raw 4, .raw 4] d ∧ e = .truncated := by
  have hs : Short [.raw 4, .raw 4, .raw 4, .raw 4] d ↔ d.length < 16 := short_raws (ns := [4, 4, 4, 4])
  unfold Chan.OpenConfirmation.parse
  rw [hs]
  by_cases a1 : d.length < 16
  · rw [if_pos a1]
    simp [a1, @eq_comm _ e]
  rw [if_neg a1]
  have q1 : (d.take 4).length = 4 := by simp; omega
  have q2 : ((d.take 8).drop 4).length = 4 := by simp; omega
  have q3 : ((d.take 12).drop 8).length = 4 := by simp; omega
  have q4 : ((d.take 16).drop 12).length = 4 := by simp; omega
  obtain ⟨x1, e1⟩ := exists_u32 q1
  obtain ⟨x2, e2⟩ := exists_u32 q2
  obtain ⟨x3, e3⟩ := exists_u32 q3
  obtain ⟨x4, e4⟩ := exists_u32 q4
  have g : 4 ≤ d.length ∧ 8 ≤ d.length ∧ 12 ≤ d.length ∧ 16 ≤ d.length := by omega
  simp only [idxTo, idxRange, idxFrom, g, ok_bind, u32FromBe_eq_ok.mpr e1, u32FromBe_eq_ok.mpr e2,
    u32FromBe_eq_ok.mpr e3, u32FromBe_eq_ok.mpr e4, Nat.reduceLeDiff, if_true, and_self]
  simp [a1]

theorem Chan.ChanOnly.parse_err {d : Bytes} {e} : Chan.ChanOnly.parse d = err e ↔
    Spec.Misfit [.raw 4] .badLength .badLength d e := by
  have hs : Short [.raw 4] d ↔ d.length < 4 := short_raws (ns := [4])
  have hl : (∃ vs rest, Whole [.raw 4] vs rest d ∧ rest ≠ [] ∧ e = .badLength) ↔
      4 ≤ d.length ∧ d.drop 4 ≠ [] ∧ e = .badLength := long_raws (ns := [4])
  unfold Chan.ChanOnly.parse Spec.Misfit
  rw [hs, hl]
  by_cases a : d.length = 4
  · obtain ⟨x, hx⟩ := exists_u32 a
    rw [if_pos a, u32FromBe_eq_ok.mpr hx]
    simp [a]
  · rw [if_neg a]
    rw [Ne, List.drop_eq_nil_iff]
    cases e
    simp
    omega

theorem Chan.Request.parse_err {d : Bytes} {e} : Chan.Request.parse d = err e ↔
    Short [.raw 4, .str, .raw 1] d ∧ e = .truncated := by
  unfold Chan.Request.parse
  rcases getCases d with ⟨s0, p0⟩ | ⟨v0, r0, x0, h0, rfl, p0, q0, w0⟩
  · simp [p0, s0, short_of s0, whole_of s0, ok_okOr, err_okOr, ok_bind, err_bind, short_nil, named_nil, long_nil, guardE, @eq_comm _ e]
  rcases strCases r0 with ⟨s1, p1⟩ | ⟨v1, r1, h1, rfl, p1⟩
  · simp [p0, short_raw h0, named_raw h0, long_raw h0, p1, s1, short_of s1, whole_of s1, ok_okOr, err_okOr, ok_bind, err_bind, short_nil, named_nil, long_nil, guardE, q0, w0, @eq_comm _ e]
  simp only [p0, short_raw h0, named_raw h0, long_raw h0, p1, short_str h1, named_str h1, long_str h1, ok_okOr, err_okOr, ok_bind, err_bind, short_nil, named_nil, long_nil, guardE, q0, w0]
  rw [short_raw_iff]
  cases r1 <;> simp [getAt, idxFrom, @eq_comm _ e]

theorem Kex.NewKeys.parse_err {d : Bytes} {e} : Kex.NewKeys.parse d = err e ↔ d ≠ [] ∧ e = .unread := by
  cases e
  cases d <;> simp [Kex.NewKeys.parse, guardE]

theorem Auth.Success.parse_err {d : Bytes} {e} : Auth.Success.parse d = err e ↔ d ≠ [] ∧ e = .unread := by
  cases e
  cases d <;> simp [Auth.Success.parse, guardE]

theorem Kex.EcdhReply.parse_err {d : Bytes} {e} : Kex.EcdhReply.parse d = err e ↔
    (Short [.str] d ∧ e = .truncated) ∨ ∃ k rest, Whole [.str] [k] rest d ∧ e = .badData := by
  unfold Kex.EcdhReply.parse
  rcases strCases d with ⟨s0, p0⟩ | ⟨v0, r0, h0, rfl, p0⟩
  · simp [p0, s0, short_of s0, whole_of s0, ok_okOr, err_okOr, ok_bind, err_bind, short_nil, named_nil, long_nil, guardE, @eq_comm _ e]
  have hk : Kex.Key.parse v0 = err () := by
    cases hp : Kex.Key.parse v0 with
    | err _ => rfl
    | ok _ => exact absurd hp Kex.Key.parse_ne_ok
    | panic =>
      simp [Kex.Key.parse, Kex.KeyBlob.parse, parseString_ne_panic] at hp
  simp only [p0, short_str h0, named_str h0, long_str h0, ok_okOr, err_okOr, ok_bind, err_bind, short_nil, named_nil, long_nil, guardE, hk]
  simp [@eq_comm _ e]

theorem Auth.Failure.parse_err {d : Bytes} {e} : Auth.Failure.parse d = err e ↔
    Spec.Misfit [.str, .raw 1] .truncated .unread d e ∨
    ∃ l a e', Whole [.str, .raw 1] [l, a] [] d ∧ Spec.BadNames l e' ∧ e = .invalidNameList e' := by
  unfold Auth.Failure.parse Spec.Misfit
  rcases strCases d with ⟨s0, p0⟩ | ⟨v0, r0, h0, rfl, p0⟩
  · simp [p0, s0, short_of s0, whole_of s0, ok_okOr, err_okOr, ok_bind, err_bind, short_nil, named_nil, long_nil, guardE, @eq_comm _ e]
  cases r0 with
  | nil =>
    have hs : Short [.raw 1] [] := short_raw_iff.mpr (by decide)
    simp only [p0, short_str h0, named_str h0, long_str h0, ok_okOr, err_okOr, ok_bind, err_bind, short_nil, named_nil, long_nil, guardE, hs, whole_of hs]
    simp [@eq_comm _ e]
  | cons a r =>
    have hc : a :: r = [a] ++ r := rfl
    rw [hc]
    have ha : [a].length = 1 := rfl
    rw [hc] at p0
    simp only [p0, short_str h0, named_str h0, long_str h0, ok_okOr, err_okOr, ok_bind, err_bind, short_nil, named_nil, long_nil, guardE, short_raw ha, long_raw ha, named_raw ha, and_assoc, exists_and_left, exists_eq_left]
    cases r with
    | cons b r => simp [@eq_comm _ e]
    | nil =>
      rcases namesCases v0 with ⟨hn, hp⟩ | ⟨e', hn, hp⟩
      · simp only [List.append_nil, hp, ok_mapErr, ok_bind]
        simp [Spec.BadNames, hn]
      · simp only [List.append_nil, hp, err_mapErr, err_bind]
        simp only [Spec.BadNames] at hn ⊢
        obtain ⟨hn, rfl⟩ := hn
        simp [hn, @eq_comm _ e]

/-- what a method's fields are read with -/
theorem parse1 {α : Type} {d : Bytes} {e : Auth.RequestParseError} {f : Bytes → α} :
    (do let (a, d) ← (parseString d).okOr Auth.RequestParseError.truncated
        guardE d.isEmpty .unread
        .ok (f a) : R Auth.RequestParseError α) = err e ↔ Spec.Misfit [.str] .truncated .unread d e := by
  unfold Spec.Misfit
  rcases strCases d with ⟨s0, p0⟩ | ⟨v0, r0, h0, rfl, p0⟩
  · simp [p0, s0, short_of s0, whole_of s0, ok_okOr, err_okOr, ok_bind, err_bind, short_nil, named_nil, long_nil, guardE, @eq_comm _ e]
  simp only [p0, short_str h0, named_str h0, long_str h0, ok_okOr, err_okOr, ok_bind, err_bind, short_nil, named_nil, long_nil, guardE]
  cases r0 <;> simp [@eq_comm _ e]

theorem parse2 {α : Type} {d : Bytes} {e : Auth.RequestParseError} {f : Bytes → Bytes → α} :
    (do let (a, d) ← (parseString d).okOr Auth.RequestParseError.truncated
        let (b, d) ← (parseString d).okOr Auth.RequestParseError.truncated
        guardE d.isEmpty .unread
        .ok (f a b) : R Auth.RequestParseError α) = err e ↔ Spec.Misfit [.str, .str] .truncated .unread d e := by
  unfold Spec.Misfit
  rcases strCases d with ⟨s0, p0⟩ | ⟨v0, r0, h0, rfl, p0⟩
  · simp [p0, s0, short_of s0, whole_of s0, ok_okOr, err_okOr, ok_bind, err_bind, short_nil, named_nil, long_nil, guardE, @eq_comm _ e]
  rcases strCases r0 with ⟨s1, p1⟩ | ⟨v1, r1, h1, rfl, p1⟩
  · simp [p0, short_str h0, named_str h0, long_str h0, p1, s1, short_of s1, whole_of s1, ok_okOr, err_okOr, ok_bind, err_bind, short_nil, named_nil, long_nil, guardE, @eq_comm _ e]
  simp only [p0, short_str h0, named_str h0, long_str h0, p1, short_str h1, named_str h1, long_str h1, ok_okOr, err_okOr, ok_bind, err_bind, short_nil, named_nil, long_nil, guardE]
  cases r1 <;> simp [@eq_comm _ e]

theorem parse3 {α : Type} {d : Bytes} {e : Auth.RequestParseError} {f : Bytes → Bytes → Bytes → α} :
    (do let (a, d) ← (parseString d).okOr Auth.RequestParseError.truncated
        let (b, d) ← (parseString d).okOr Auth.RequestParseError.truncated
        let (c, d) ← (parseString d).okOr Auth.RequestParseError.truncated
        guardE d.isEmpty .unread
        .ok (f a b c) : R Auth.RequestParseError α) = err e ↔
      Spec.Misfit [.str, .str, .str] .truncated .unread d e := by
  unfold Spec.Misfit
  rcases strCases d with ⟨s0, p0⟩ | ⟨v0, r0, h0, rfl, p0⟩
  · simp [p0, s0, short_of s0, whole_of s0, ok_okOr, err_okOr, ok_bind, err_bind, short_nil, named_nil, long_nil, guardE, @eq_comm _ e]
  rcases strCases r0 with ⟨s1, p1⟩ | ⟨v1, r1, h1, rfl, p1⟩
  · simp [p0, short_str h0, named_str h0, long_str h0, p1, s1, short_of s1, whole_of s1, ok_okOr, err_okOr, ok_bind, err_bind, short_nil, named_nil, long_nil, guardE, @eq_comm _ e]
  rcases strCases r1 with ⟨s2, p2⟩ | ⟨v2, r2, h2, rfl, p2⟩
  · simp [p0, short_str h0, named_str h0, long_str h0, p1, short_str h1, named_str h1, long_str h1, p2, s2, short_of s2, whole_of s2, ok_okOr, err_okOr, ok_bind, err_bind, short_nil, named_nil, long_nil, guardE, @eq_comm _ e]
  simp only [p0, short_str h0, named_str h0, long_str h0, p1, short_str h1, named_str h1, long_str h1, p2, short_str h2, named_str h2, long_str h2, ok_okOr, err_okOr, ok_bind, err_bind, short_nil, named_nil, long_nil, guardE]
  cases r2 <;> simp [@eq_comm _ e]

theorem parseHost {d : Bytes} {e : Auth.RequestParseError} :
    (do let (algorithm, d) ← (parseString d).okOr Auth.RequestParseError.truncated
        let (key, d) ← (parseString d).okOr Auth.RequestParseError.truncated
        let (host, d) ← (parseString d).okOr Auth.RequestParseError.truncated
        let (user, d) ← (parseString d).okOr Auth.RequestParseError.truncated
        let (signature, d) ← (parseString d).okOr Auth.RequestParseError.truncated
        guardE d.isEmpty .unread
        let host ← (AsciiStr.tryFrom host).okOr Auth.RequestParseError.notAscii
        let user ← (Utf8.fromUtf8 user).okOr Auth.RequestParseError.notUtf8
        .ok (Auth.Method.hostBased algorithm key host user signature) : R Auth.RequestParseError Auth.Method) = err e ↔
      Spec.Misfit [.str, .str, .str, .str, .str] .truncated .unread d e ∨
      (∃ a k h u s, Whole [.str, .str, .str, .str, .str] [a, k, h, u, s] [] d ∧ ¬ Spec.Ascii h ∧ e = .notAscii) ∨
      (∃ a k h u s, Whole [.str, .str, .str, .str, .str] [a, k, h, u, s] [] d ∧ Spec.Ascii h ∧ ¬ Spec.Utf8 u ∧
        e = .notUtf8) := by
  unfold Spec.Misfit
  rcases strCases d with ⟨s0, p0⟩ | ⟨v0, r0, h0, rfl, p0⟩
  · simp [p0, s0, short_of s0, whole_of s0, ok_okOr, err_okOr, ok_bind, err_bind, short_nil, named_nil, long_nil, guardE, @eq_comm _ e]
  rcases strCases r0 with ⟨s1, p1⟩ | ⟨v1, r1, h1, rfl, p1⟩
  · simp [p0, short_str h0, named_str h0, long_str h0, p1, s1, short_of s1, whole_of s1, ok_okOr, err_okOr, ok_bind, err_bind, short_nil, named_nil, long_nil, guardE, @eq_comm _ e]
  rcases strCases r1 with ⟨s2, p2⟩ | ⟨v2, r2, h2, rfl, p2⟩
  · simp [p0, short_str h0, named_str h0, long_str h0, p1, short_str h1, named_str h1, long_str h1, p2, s2, short_of s2, whole_of s2, ok_okOr, err_okOr, ok_bind, err_bind, short_nil, named_nil, long_nil, guardE, @eq_comm _ e]
  rcases strCases r2 with ⟨s3, p3⟩ | ⟨v3, r3, h3, rfl, p3⟩
  · simp [p0, short_str h0, named_str h0, long_str h0, p1, short_str h1, named_str h1, long_str h1, p2, short_str h2, named_str h2, long_str h2, p3, s3, short_of s3, whole_of s3, ok_okOr, err_okOr, ok_bind, err_bind, short_nil, named_nil, long_nil, guardE, @eq_comm _ e]
  rcases strCases r3 with ⟨s4, p4⟩ | ⟨v4, r4, h4, rfl, p4⟩
  · simp [p0, short_str h0, named_str h0, long_str h0, p1, short_str h1, named_str h1, long_str h1, p2, short_str h2, named_str h2, long_str h2, p3, short_str h3, named_str h3, long_str h3, p4, s4, short_of s4, whole_of s4, ok_okOr, err_okOr, ok_bind, err_bind, short_nil, named_nil, long_nil, guardE, @eq_comm _ e]
  simp only [p0, short_str h0, named_str h0, long_str h0, p1, short_str h1, named_str h1, long_str h1, p2, short_str h2, named_str h2, long_str h2, p3, short_str h3, named_str h3, long_str h3, p4, short_str h4, named_str h4, long_str h4, ok_okOr, err_okOr, ok_bind, err_bind, short_nil, named_nil, long_nil, guardE, and_assoc, exists_eq_left, exists_and_left]
  rcases asciiCases v2 with ⟨a, ha⟩ | ⟨a, ha⟩ <;> rcases utf8Cases v3 with ⟨u, hu⟩ | ⟨u, hu⟩ <;> cases r4 <;>
    simp [ha, hu, a, u, @eq_comm _ e]

/-- the part of `Request::parse` after the name of the method, userauth.rs:154-198 -/
def Auth.methodParse (method data : Bytes) : R Auth.RequestParseError Auth.Method :=
  let parse := fun data => (parseString data).okOr Auth.RequestParseError.truncated
  let empty := fun (data : Bytes) => guardE data.isEmpty Auth.RequestParseError.unread
  if method = b! "none" then do
    empty data
    .ok Auth.Method.none
  else if method = b! "publickey" then do
    let (sign, data) ← (splitFirst data).okOr Auth.RequestParseError.truncated
    if sign = 0 then do
      let (algorithm, data) ← parse data
      let (blob, data) ← parse data
      empty data
      .ok (Auth.Method.publicKeyBlob algorithm blob)
    else do
      let (algorithm, data) ← parse data
      let (key, data) ← parse data
      let (signature, data) ← parse data
      empty data
      .ok (Auth.Method.publicKeySigned algorithm key signature)
  else if method = b! "password" then do
    let (renew, data) ← (splitFirst data).okOr Auth.RequestParseError.truncated
    if renew = 0 then do
      let (password, data) ← parse data
      empty data
      .ok (Auth.Method.password password)
    else do
      let (oldPassword, data) ← parse data
      let (newPassword, data) ← parse data
      empty data
      .ok (Auth.Method.passwordRenew oldPassword newPassword)
  else if method = b! "hostbased" then do
    let (algorithm, data) ← parse data
    let (keyAndCertificates, data) ← parse data
    let (hostName, data) ← parse data
    let (userName, data) ← parse data
    let (signature, data) ← parse data
    empty data
    let hostName ← (AsciiStr.tryFrom hostName).okOr Auth.RequestParseError.notAscii
    let userName ← (Utf8.fromUtf8 userName).okOr Auth.RequestParseError.notUtf8
    .ok (Auth.Method.hostBased algorithm keyAndCertificates hostName userName signature)
  else .ok (Auth.Method.other method data)

theorem Auth.methodParse_err {m d : Bytes} {e} : Auth.methodParse m d = err e ↔ Spec.MethodError d m e := by
  have n1 : b! "publickey" ≠ b! "none" := by decide
  have n2 : b! "password" ≠ b! "none" := by decide
  have n3 : b! "password" ≠ b! "publickey" := by decide
  have n4 : b! "hostbased" ≠ b! "none" := by decide
  have n5 : b! "hostbased" ≠ b! "publickey" := by decide
  have n6 : b! "hostbased" ≠ b! "password" := by decide
  unfold Auth.methodParse
  constructor
  · intro h
    rcases ite_or h with ⟨rfl, h⟩ | ⟨m1, h⟩
    · have hd : d ≠ [] := by
        rintro rfl
        simp [guardE] at h
      cases d with
      | nil => exact absurd rfl hd
      | cons a r =>
        simp only [guardE, List.isEmpty_cons, Bool.false_eq_true, if_false, err_bind] at h
        cases h
        exact .none hd
    rcases ite_or h with ⟨rfl, h⟩ | ⟨m2, h⟩
    · cases d with
      | nil =>
        cases h
        exact .noFlag (.inl rfl) rfl
      | cons a r =>
        simp only [splitFirst, ok_okOr, ok_bind] at h
        by_cases ha : a = 0
        · subst ha
          rw [if_pos rfl] at h
          exact .probe rfl (parse2.mp h)
        · rw [if_neg ha] at h
          exact .signed rfl ha (parse3.mp h)
    rcases ite_or h with ⟨rfl, h⟩ | ⟨m3, h⟩
    · cases d with
      | nil =>
        cases h
        exact .noFlag (.inr rfl) rfl
      | cons a r =>
        simp only [splitFirst, ok_okOr, ok_bind] at h
        by_cases ha : a = 0
        · subst ha
          rw [if_pos rfl] at h
          exact .password rfl (parse1.mp h)
        · rw [if_neg ha] at h
          exact .renew rfl ha (parse2.mp h)
    rcases ite_or h with ⟨rfl, h⟩ | ⟨m4, h⟩
    · rcases parseHost.mp h with h | ⟨a, k, h, u, s, hw, h1, rfl⟩ | ⟨a, k, h, u, s, hw, h1, h2, rfl⟩
      · exact .hostBased h
      · exact .hostName hw h1
      · exact .userName hw h1 h2
    · cases h
  · intro h
    cases h with
    | none hd =>
      rw [if_pos rfl]
      cases d with
      | nil => exact absurd rfl hd
      | cons a r => rfl
    | noFlag hm hd =>
      subst hd
      rcases hm with rfl | rfl
      · rw [if_neg n1, if_pos rfl]; rfl
      · rw [if_neg n2, if_neg n3, if_pos rfl]; rfl
    | probe hd h =>
      subst hd
      rw [if_neg n1, if_pos rfl]
      simp only [splitFirst, ok_okOr, ok_bind, if_true]
      exact parse2.mpr h
    | signed hd ha h =>
      subst hd
      rw [if_neg n1, if_pos rfl]
      simp only [splitFirst, ok_okOr, ok_bind, if_neg ha]
      exact parse3.mpr h
    | password hd h =>
      subst hd
      rw [if_neg n2, if_neg n3, if_pos rfl]
      simp only [splitFirst, ok_okOr, ok_bind, if_true]
      exact parse1.mpr h
    | renew hd ha h =>
      subst hd
      rw [if_neg n2, if_neg n3, if_pos rfl]
      simp only [splitFirst, ok_okOr, ok_bind, if_neg ha]
      exact parse2.mpr h
    | hostBased h =>
      rw [if_neg n4, if_neg n5, if_neg n6, if_pos rfl]
      exact parseHost.mpr (.inl h)
    | hostName hw h1 =>
      rw [if_neg n4, if_neg n5, if_neg n6, if_pos rfl]
      exact parseHost.mpr (.inr (.inl ⟨_, _, _, _, _, hw, h1, rfl⟩))
    | userName hw h1 h2 =>
      rw [if_neg n4, if_neg n5, if_neg n6, if_pos rfl]
      exact parseHost.mpr (.inr (.inr ⟨_, _, _, _, _, hw, h1, h2, rfl⟩))

theorem Auth.Request.parse_eq (d : Bytes) : Auth.Request.parse d = (do
    let (user, d) ← (parseString d).okOr Auth.RequestParseError.truncated
    let (service, d) ← (parseString d).okOr Auth.RequestParseError.truncated
    let (method, d) ← (parseString d).okOr Auth.RequestParseError.truncated
    let method ← Auth.methodParse method d
    .ok { user, service, method }) := rfl

theorem Auth.Request.parse_err {d : Bytes} {e} : Auth.Request.parse d = err e ↔
    (Short [.str, .str, .str] d ∧ e = .truncated) ∨
    ∃ u s m rest, Whole [.str, .str, .str] [u, s, m] rest d ∧ Spec.MethodError rest m e := by
  rw [Auth.Request.parse_eq]
  rcases strCases d with ⟨s0, p0⟩ | ⟨v0, r0, h0, rfl, p0⟩
  · simp [p0, s0, short_of s0, whole_of s0, ok_okOr, err_okOr, ok_bind, err_bind, short_nil, named_nil, long_nil, guardE, @eq_comm _ e]
  rcases strCases r0 with ⟨s1, p1⟩ | ⟨v1, r1, h1, rfl, p1⟩
  · simp [p0, short_str h0, named_str h0, long_str h0, p1, s1, short_of s1, whole_of s1, ok_okOr, err_okOr, ok_bind, err_bind, short_nil, named_nil, long_nil, guardE, @eq_comm _ e]
  rcases strCases r1 with ⟨s2, p2⟩ | ⟨v2, r2, h2, rfl, p2⟩
  · simp [p0, short_str h0, named_str h0, long_str h0, p1, short_str h1, named_str h1, long_str h1, p2, s2, short_of s2, whole_of s2, ok_okOr, err_okOr, ok_bind, err_bind, short_nil, named_nil, long_nil, guardE, @eq_comm _ e]
  simp only [p0, short_str h0, named_str h0, long_str h0, p1, short_str h1, named_str h1, long_str h1, p2, short_str h2, named_str h2, long_str h2, ok_okOr, err_okOr, ok_bind, err_bind, short_nil, named_nil, long_nil, guardE, and_assoc, exists_eq_left, exists_and_left, ← Auth.methodParse_err]
  cases hm : Auth.methodParse v2 r2 <;> simp

/-! ### KEXINIT -/

/-- the errors with this many lists to come -/
inductive ListsError : Nat → Bytes → Kex.KexInitParseError → Prop
  | flag {d} : Short [.raw 1, .raw 4] d → ListsError 0 d .truncated
  | zero {f z r} : f.length = 1 → z.length = 4 → z ≠ [0, 0, 0, 0] → ListsError 0 (f ++ (z ++ r)) .noTrailingZero
  | more {f r} : f.length = 1 → r ≠ [] → ListsError 0 (f ++ ([0, 0, 0, 0] ++ r)) .unread
  | short {n d} : Short [.str] d → ListsError (n + 1) d .truncated
  | names {n l e r} : Spec.Fits l → Spec.BadNames l e → ListsError (n + 1) (Spec.str l ++ r) (.invalidNameList e)
  | next {n l r e} : Spec.Fits l → Spec.NameListOk l → ListsError n r e → ListsError (n + 1) (Spec.str l ++ r) e

theorem str_short {v r : Bytes} (hv : Spec.Fits v) : ¬ Short [.str] (Spec.str v ++ r) := by
  rw [short_str hv, short_nil]
  exact id

theorem str_inj {v v' r r' : Bytes} (hv : Spec.Fits v) (hv' : Spec.Fits v') (h : Spec.str v ++ r = Spec.str v' ++ r') :
    v = v' ∧ r = r' := Spec.Field.inj (f := .str) hv hv' h

theorem lists_step {α : Type} {n : Nat} {d : Bytes} {e : Kex.KexInitParseError}
    {k : NameList × Bytes → R Kex.KexInitParseError α} (hk : ∀ l r, k (l, r) = err e ↔ ListsError n r e) :
    (Kex.KexInit.nameListE d >>= k) = err e ↔ ListsError (n + 1) d e := by
  rcases strCases d with ⟨s, p⟩ | ⟨v, r, h, rfl, p⟩
  · simp only [Kex.KexInit.nameListE, nameList, p, err_bind, err_okOr]
    constructor
    · intro h
      cases h
      exact .short s
    · intro h
      cases h with
      | short _ => rfl
      | names h _ => exact absurd s (str_short h)
      | next h _ _ => exact absurd s (str_short h)
  · rcases namesCases v with ⟨hn, hp⟩ | ⟨e', hn, hp⟩
    · simp only [Kex.KexInit.nameListE, nameList, p, ok_bind, ok_okOr, hp, ok_mapErr]
      rw [hk]
      constructor
      · exact .next h hn
      · intro h'
        generalize hd : Spec.str v ++ r = d at h'
        cases h' with
        | short hs => exact absurd hs (hd ▸ str_short h)
        | names h1 h2 =>
          obtain ⟨rfl, rfl⟩ := str_inj h h1 hd
          exact absurd hn h2.1
        | next h1 h2 h3 =>
          obtain ⟨rfl, rfl⟩ := str_inj h h1 hd
          exact h3
    · simp only [Kex.KexInit.nameListE, nameList, p, ok_bind, ok_okOr, hp, err_mapErr, err_bind]
      constructor
      · intro h'
        cases h'
        exact .names h hn
      · intro h'
        generalize hd : Spec.str v ++ r = d at h'
        cases h' with
        | short hs => exact absurd hs (hd ▸ str_short h)
        | names h1 h2 =>
          obtain ⟨rfl, rfl⟩ := str_inj h h1 hd
          rw [badNames_unique hn h2]
        | next h1 h2 h3 =>
          obtain ⟨rfl, rfl⟩ := str_inj h h1 hd
          exact absurd h2 hn.1

theorem lists_end {α : Type} {d : Bytes} {e : Kex.KexInitParseError} {c : Bytes} {mk : Byte → α} (hc : c.length = 16) :
    (do let (f, data) ← (split d 1).okOr Kex.KexInitParseError.truncated
        let (zero, data) ← (split data 4).okOr Kex.KexInitParseError.truncated
        guardE (zero == [0, 0, 0, 0]) .noTrailingZero
        guardE data.isEmpty .unread
        assertP (c.length == 16)
        let f ← idxAt f 0
        .ok (mk f) : R Kex.KexInitParseError α) = err e ↔ ListsError 0 d e := by
  rcases splitCases 1 d with ⟨s0, p0⟩ | ⟨v0, r0, h0, rfl, p0⟩
  · simp only [p0, err_okOr, err_bind]
    have hl := short_raw_iff.mp s0
    constructor
    · intro h
      cases h
      exact .flag ((short_of s0).mpr trivial)
    · intro h
      cases h with
      | flag _ => rfl
      | zero h1 _ _ => rw [List.length_append] at hl; omega
      | more h1 _ => rw [List.length_append] at hl; omega
  rcases splitCases 4 r0 with ⟨s1, p1⟩ | ⟨v1, r1, h1, rfl, p1⟩
  · simp only [p0, ok_okOr, ok_bind, p1, err_okOr, err_bind]
    have hl := short_raw_iff.mp s1
    constructor
    · intro h
      cases h
      exact .flag ((short_raw h0).mpr s1)
    · intro h
      generalize hd : v0 ++ r0 = d at h
      cases h with
      | flag _ => rfl
      | zero g1 g2 _ =>
        obtain ⟨rfl, rfl⟩ := List.append_inj hd (h0.trans g1.symm)
        rw [List.length_append] at hl; omega
      | more g1 _ =>
        obtain ⟨rfl, rfl⟩ := List.append_inj hd (h0.trans g1.symm)
        simp only [List.length_append, List.length_cons, List.length_nil] at hl
        omega
  simp only [p0, ok_okOr, ok_bind, p1]
  have hs : ¬ Short [.raw 1, .raw 4] (v0 ++ (v1 ++ r1)) := by
    rw [short_raw h0, short_raw h1, short_nil]
    exact id
  by_cases hz : v1 = [0, 0, 0, 0]
  · subst hz
    cases r1 with
    | nil =>
      have : ∃ a, v0 = [a] := List.length_eq_one_iff.mp h0
      obtain ⟨a, rfl⟩ := this
      simp only [guardE, beq_self_eq_true, if_true, ok_bind, List.isEmpty_nil, assertP, hc, idxAt,
        List.getElem?_cons_zero]
      constructor
      · intro h
        cases h
      · intro h
        exfalso
        generalize hd : [a] ++ ([0, 0, 0, 0] ++ []) = d at h
        cases h with
        | flag h => exact hs (hd ▸ h)
        | zero g1 g2 g3 =>
          obtain ⟨rfl, g4⟩ := List.append_inj hd (h0.trans g1.symm)
          exact g3 (List.append_inj g4 (by rw [g2]; rfl)).1.symm
        | more g1 g2 =>
          obtain ⟨rfl, g4⟩ := List.append_inj hd (h0.trans g1.symm)
          exact g2 (List.append_cancel_left g4).symm
    | cons b r1 =>
      simp only [guardE, beq_self_eq_true, if_true, ok_bind, List.isEmpty_cons, Bool.false_eq_true, if_false, err_bind]
      constructor
      · intro h
        cases h
        exact .more h0 (List.cons_ne_nil _ _)
      · intro h
        generalize hd : v0 ++ ([0, 0, 0, 0] ++ b :: r1) = d at h
        cases h with
        | flag h => exact absurd (hd ▸ h) hs
        | zero g1 g2 g3 =>
          obtain ⟨rfl, g4⟩ := List.append_inj hd (h0.trans g1.symm)
          exact absurd (List.append_inj g4 (by rw [g2]; rfl)).1.symm g3
        | more g1 g2 => rfl
  · have hz' : (v1 == [0, 0, 0, 0]) = false := by simpa using hz
    simp only [guardE, hz', Bool.false_eq_true, if_false, err_bind]
    constructor
    · intro h
      cases h
      exact .zero h0 h1 hz
    · intro h
      generalize hd : v0 ++ (v1 ++ r1) = d at h
      cases h with
      | flag h => exact absurd (hd ▸ h) hs
      | zero g1 g2 g3 => rfl
      | more g1 g2 =>
        obtain ⟨rfl, g4⟩ := List.append_inj hd (h0.trans g1.symm)
        exact absurd (List.append_inj g4 (by rw [h1]; rfl)).1 hz

theorem Kex.KexInit.parse_lists {d : Bytes} {e} : Kex.KexInit.parse d = err e ↔
    (Short [.raw 16] d ∧ e = .truncated) ∨ ∃ c r, c.length = 16 ∧ d = c ++ r ∧ ListsError 10 r e := by
  unfold Kex.KexInit.parse
  rcases splitCases 16 d with ⟨s0, p0⟩ | ⟨v0, r0, h0, rfl, p0⟩
  · simp only [p0, err_okOr, err_bind]
    constructor
    · intro h
      cases h
      exact .inl ⟨s0, rfl⟩
    · rintro (⟨_, rfl⟩ | ⟨c, r, hc, rfl, _⟩)
      · rfl
      · have := short_raw_iff.mp s0
        rw [List.length_append] at this
        omega
  · simp only [p0, ok_okOr, ok_bind]
    have hi : ∀ {x : Prop}, (x ↔ ListsError 10 r0 e) →
        (x ↔ (Short [.raw 16] (v0 ++ r0) ∧ e = .truncated) ∨
          ∃ c r, c.length = 16 ∧ v0 ++ r0 = c ++ r ∧ ListsError 10 r e) := by
      intro x hx
      rw [hx, short_raw h0, short_nil, false_and, false_or]
      constructor
      · intro h
        exact ⟨v0, r0, h0, rfl, h⟩
      · rintro ⟨c, r, hc, he, h⟩
        obtain ⟨rfl, rfl⟩ := List.append_inj he (h0.trans hc.symm)
        exact h
    refine hi ?_
    refine lists_step fun l1 r1 => ?_
    refine lists_step fun l2 r2 => ?_
    refine lists_step fun l3 r3 => ?_
    refine lists_step fun l4 r4 => ?_
    refine lists_step fun l5 r5 => ?_
    refine lists_step fun l6 r6 => ?_
    refine lists_step fun l7 r7 => ?_
    refine lists_step fun l8 r8 => ?_
    refine lists_step fun l9 r9 => ?_
    refine lists_step fun l10 r10 => ?_
    exact lists_end h0

theorem lists_succ (n : Nat) : Spec.lists (n + 1) = .str :: Spec.lists n := List.replicate_succ

theorem fields_length {fs : List Field} {vs : List Bytes} {b : Bytes} (h : Fields fs vs b) : vs.length = fs.length := by
  induction h with
  | nil => rfl
  | cons _ _ ih => rw [List.length_cons, List.length_cons, ih]

theorem whole_length {fs : List Field} {vs : List Bytes} {rest d : Bytes} (h : Whole fs vs rest d) :
    vs.length = fs.length := by
  obtain ⟨b, h, -⟩ := h
  exact fields_length h

theorem whole_end {f z rest d : Bytes} : Whole [.raw 1, .raw 4] [f, z] rest d ↔
    f.length = 1 ∧ z.length = 4 ∧ d = f ++ (z ++ rest) := by
  constructor
  · rintro ⟨b, h, rfl⟩
    cases h with
    | cons h1 h =>
      cases h with
      | cons h2 h =>
        cases h
        exact ⟨h1, h2, by simp [Spec.Field.bytes]⟩
  · rintro ⟨h1, h2, rfl⟩
    rw [named_raw h1, named_raw h2, named_nil]
    exact ⟨rfl, rfl, rfl⟩

theorem ListsError.iff {n : Nat} {d : Bytes} {e : Kex.KexInitParseError} : ListsError n d e ↔
    (Short (Spec.lists n ++ [.raw 1, .raw 4]) d ∧
      (∀ m vs rest, Whole (Spec.lists m) vs rest d → m ≤ n → ∀ l ∈ vs, Spec.NameListOk l) ∧ e = .truncated) ∨
    (∃ m ls l rest e', Whole (Spec.lists (m + 1)) (ls ++ [l]) rest d ∧ m < n ∧ (∀ l ∈ ls, Spec.NameListOk l) ∧
      Spec.BadNames l e' ∧ e = .invalidNameList e') ∨
    (∃ ls f z rest, Whole (Spec.lists n ++ [.raw 1, .raw 4]) (ls ++ [f, z]) rest d ∧ (∀ l ∈ ls, Spec.NameListOk l) ∧
      z ≠ [0, 0, 0, 0] ∧ e = .noTrailingZero) ∨
    (∃ ls f rest, Whole (Spec.lists n ++ [.raw 1, .raw 4]) (ls ++ [f, [0, 0, 0, 0]]) rest d ∧
      (∀ l ∈ ls, Spec.NameListOk l) ∧ rest ≠ [] ∧ e = .unread) := by
  constructor
  · intro h
    induction h with
    | flag hs =>
      refine .inl ⟨hs, ?_, rfl⟩
      intro m vs rest hw hm
      obtain rfl : m = 0 := by omega
      rw [(whole_nil.mp hw).1]
      exact fun _ h => absurd h List.not_mem_nil
    | zero h1 h2 h3 =>
      exact .inr (.inr (.inl ⟨[], _, _, _, whole_end.mpr ⟨h1, h2, rfl⟩, fun _ h => absurd h List.not_mem_nil, h3, rfl⟩))
    | more h1 h2 =>
      exact .inr (.inr (.inr ⟨[], _, _, whole_end.mpr ⟨h1, rfl, rfl⟩, fun _ h => absurd h List.not_mem_nil, h2, rfl⟩))
    | short hs =>
      refine .inl ⟨(short_of hs).mpr trivial, ?_, rfl⟩
      intro m vs rest hw hm
      cases m with
      | zero =>
        rw [(whole_nil.mp hw).1]
        exact fun _ h => absurd h List.not_mem_nil
      | succ m => exact ((whole_of hs).mp hw).elim
    | @names _ _ _ r hl hb =>
      refine .inr (.inl ⟨0, [], _, r, _, ?_, Nat.succ_pos _, fun _ h => absurd h List.not_mem_nil, hb, rfl⟩)
      exact (named_str hl).mpr ⟨rfl, named_nil.mpr rfl⟩
    | @next n l r e hl hn _ ih =>
      have hc : ∀ {ls : List Bytes}, (∀ l ∈ ls, Spec.NameListOk l) → ∀ l' ∈ l :: ls, Spec.NameListOk l' := by
        intro ls h l' hl'
        rcases List.mem_cons.mp hl' with rfl | hl'
        · exact hn
        · exact h _ hl'
      rcases ih with ⟨hs, ha, rfl⟩ | ⟨m, ls, l', rest, e', hw, hm, ha, hb, rfl⟩ | ⟨ls, f, z, rest, hw, ha, hz, rfl⟩ |
        ⟨ls, f, rest, hw, ha, hr, rfl⟩
      · refine .inl ⟨(short_str hl).mpr hs, ?_, rfl⟩
        intro m vs rest hw hm
        cases m with
        | zero =>
          rw [(whole_nil.mp hw).1]
          exact fun _ h => absurd h List.not_mem_nil
        | succ m =>
          obtain ⟨vs', rfl, hw'⟩ := (whole_str hl).mp hw
          exact hc (ha m vs' rest hw' (by omega))
      · exact .inr (.inl ⟨m + 1, l :: ls, l', rest, e', (named_str hl).mpr ⟨rfl, hw⟩, by omega, hc ha, hb, rfl⟩)
      · exact .inr (.inr (.inl ⟨l :: ls, f, z, rest, (named_str hl).mpr ⟨rfl, hw⟩, hc ha, hz, rfl⟩))
      · exact .inr (.inr (.inr ⟨l :: ls, f, rest, (named_str hl).mpr ⟨rfl, hw⟩, hc ha, hr, rfl⟩))
  · intro h
    induction n generalizing d with
    | zero =>
      rcases h with ⟨hs, ha, rfl⟩ | ⟨m, ls, l', rest, e', hw, hm, ha, hb, rfl⟩ | ⟨ls, f, z, rest, hw, ha, hz, rfl⟩ |
        ⟨ls, f, rest, hw, ha, hr, rfl⟩
      · exact .flag hs
      · omega
      · have hl := whole_length hw
        obtain rfl : ls = [] := List.eq_nil_of_length_eq_zero (by
          simp only [List.length_append, List.length_cons, List.length_nil, Spec.lists, List.length_replicate] at hl
          omega)
        obtain ⟨h1, h2, rfl⟩ := whole_end.mp hw
        exact .zero h1 h2 hz
      · have hl := whole_length hw
        obtain rfl : ls = [] := List.eq_nil_of_length_eq_zero (by
          simp only [List.length_append, List.length_cons, List.length_nil, Spec.lists, List.length_replicate] at hl
          omega)
        obtain ⟨h1, h2, rfl⟩ := whole_end.mp hw
        exact .more h1 hr
    | succ n ih =>
      have hlast : ∀ {z rest r}, ¬ Whole (Spec.lists n ++ [.raw 1, .raw 4]) [z] rest r := by
        intro z rest r hw
        have hl := whole_length hw
        simp only [List.length_append, List.length_cons, List.length_nil, Spec.lists, List.length_replicate] at hl
        omega
      rcases strCases d with ⟨s, p⟩ | ⟨v, r, hv, rfl, p⟩
      · rcases h with ⟨hs, ha, rfl⟩ | ⟨m, ls, l', rest, e', hw, hm, ha, hb, rfl⟩ | ⟨ls, f, z, rest, hw, ha, hz, rfl⟩ |
          ⟨ls, f, rest, hw, ha, hr, rfl⟩
        · exact .short s
        · exact ((whole_of s).mp hw).elim
        · exact ((whole_of s).mp hw).elim
        · exact ((whole_of s).mp hw).elim
      rcases namesCases v with ⟨hn, -⟩ | ⟨e', hn, -⟩
      · refine .next hv hn (ih ?_)
        rcases h with ⟨hs, ha, rfl⟩ | ⟨m, ls, l', rest, e', hw, hm, ha, hb, rfl⟩ | ⟨ls, f, z, rest, hw, ha, hz, rfl⟩ |
          ⟨ls, f, rest, hw, ha, hr, rfl⟩
        · refine .inl ⟨(short_str hv).mp hs, ?_, rfl⟩
          intro m vs rest hw hm l hl
          exact ha (m + 1) (v :: vs) rest ((named_str hv).mpr ⟨rfl, hw⟩) (by omega) l (List.mem_cons_of_mem _ hl)
        · obtain ⟨vs', he, hw'⟩ := (whole_str hv).mp hw
          cases ls with
          | nil =>
            cases he
            exact absurd hn hb.1
          | cons l ls =>
            cases he
            cases m with
            | zero => exact absurd (whole_nil.mp hw').1 (by simp)
            | succ m =>
              exact .inr (.inl ⟨m, ls, l', rest, e', hw', by omega, fun l hl => ha l (List.mem_cons_of_mem _ hl), hb, rfl⟩)
        · obtain ⟨vs', he, hw'⟩ := (whole_str hv).mp hw
          cases ls with
          | nil =>
            cases he
            exact absurd hw' hlast
          | cons l ls =>
            cases he
            exact .inr (.inr (.inl ⟨ls, f, z, rest, hw', fun l hl => ha l (List.mem_cons_of_mem _ hl), hz, rfl⟩))
        · obtain ⟨vs', he, hw'⟩ := (whole_str hv).mp hw
          cases ls with
          | nil =>
            cases he
            exact absurd hw' hlast
          | cons l ls =>
            cases he
            exact .inr (.inr (.inr ⟨ls, f, rest, hw', fun l hl => ha l (List.mem_cons_of_mem _ hl), hr, rfl⟩))
      · rcases h with ⟨hs, ha, rfl⟩ | ⟨m, ls, l', rest, e'', hw, hm, ha, hb, rfl⟩ | ⟨ls, f, z, rest, hw, ha, hz, rfl⟩ |
          ⟨ls, f, rest, hw, ha, hr, rfl⟩
        · exact absurd (ha 1 [v] r ((named_str hv).mpr ⟨rfl, named_nil.mpr rfl⟩) (by omega) v (List.mem_singleton_self v)) hn.1
        · obtain ⟨vs', he, hw'⟩ := (whole_str hv).mp hw
          cases ls with
          | nil =>
            cases he
            exact .names hv hb
          | cons l ls =>
            cases he
            exact absurd (ha v List.mem_cons_self) hn.1
        · obtain ⟨vs', he, hw'⟩ := (whole_str hv).mp hw
          cases ls with
          | nil =>
            cases he
            exact absurd hw' hlast
          | cons l ls =>
            cases he
            exact absurd (ha v List.mem_cons_self) hn.1
        · obtain ⟨vs', he, hw'⟩ := (whole_str hv).mp hw
          cases ls with
          | nil =>
            cases he
            exact absurd hw' hlast
          | cons l ls =>
            cases he
            exact absurd (ha v List.mem_cons_self) hn.1

theorem Kex.KexInit.parse_err {d : Bytes} {e} : Kex.KexInit.parse d = err e ↔ Spec.KexInitError d e := by
  rw [Kex.KexInit.parse_lists]
  constructor
  · rintro (⟨hs, rfl⟩ | ⟨c, r, hc, rfl, h⟩)
    · refine .truncated ((short_of hs).mpr trivial) ?_
      intro n vs rest hw
      exact ((whole_of hs).mp hw).elim
    · rcases ListsError.iff.mp h with ⟨hs, ha, rfl⟩ | ⟨m, ls, l', rest, e', hw, hm, ha, hb, rfl⟩ |
        ⟨ls, f, z, rest, hw, ha, hz, rfl⟩ | ⟨ls, f, rest, hw, ha, hr, rfl⟩
      · refine .truncated ((short_raw hc).mpr hs) ?_
        intro n vs rest hw hn
        obtain ⟨vs', rfl, hw'⟩ := (whole_raw hc).mp hw
        exact ha n vs' rest hw' hn
      · exact .invalidNameList ((named_raw hc).mpr ⟨rfl, hw⟩) hm ha hb
      · exact .noTrailingZero ((named_raw hc).mpr ⟨rfl, hw⟩) ha hz
      · exact .unread ((named_raw hc).mpr ⟨rfl, hw⟩) ha hr
  · intro h
    rcases field_cases (.raw 16) d with s | ⟨c, r, hc, rfl⟩
    · cases h with
      | truncated _ _ => exact .inl ⟨s, rfl⟩
      | invalidNameList hw _ _ _ => exact ((whole_of s).mp hw).elim
      | noTrailingZero hw _ _ => exact ((whole_of s).mp hw).elim
      | unread hw _ _ => exact ((whole_of s).mp hw).elim
    · refine .inr ⟨c, r, hc, rfl, ListsError.iff.mpr ?_⟩
      cases h with
      | truncated hs ha =>
        exact .inl ⟨(short_cons hc).mp hs, fun m vs rest hw hm => ha m (c :: vs) rest ((named_cons hc).mpr ⟨rfl, hw⟩) hm, rfl⟩
      | invalidNameList hw hn ha hb => exact .inr (.inl ⟨_, _, _, _, _, ((named_cons hc).mp hw).2, hn, ha, hb, rfl⟩)
      | noTrailingZero hw ha hz => exact .inr (.inr (.inl ⟨_, _, _, _, ((named_cons hc).mp hw).2, ha, hz, rfl⟩))
      | unread hw ha hr => exact .inr (.inr (.inr ⟨_, _, _, ((named_cons hc).mp hw).2, ha, hr, rfl⟩))

/-! ### payloads -/

theorem mapped_err {ε ε' α β : Type} {x : R ε α} {f : α → β} {g : ε → ε'} {e : ε'} :
    (x.map f).mapErr g = err e ↔ ∃ e', x = err e' ∧ e = g e' := by
  cases x <;> simp [R.map, mapErr, eq_comm]

theorem UserAuth.parse_err {t : Byte} {d : Bytes} {e} : UserAuth.parse t d = err e ↔
    (t = 50 ∧ ∃ e', Auth.Request.parse d = err e' ∧ e = .request e') ∨
    (t = 51 ∧ ∃ e', Auth.Failure.parse d = err e' ∧ e = .failure e') ∨
    (t = 52 ∧ ∃ e', Auth.Success.parse d = err e' ∧ e = .success e') ∨
    (t = 53 ∧ ∃ e', Auth.Banner.parse d = err e' ∧ e = .banner e') ∨
    (t = 60 ∧ ∃ e', Auth.PublicKeyOk.parse d = err e' ∧ e = .publicKeyOk e') ∨
    (t ≠ 50 ∧ t ≠ 51 ∧ t ≠ 52 ∧ t ≠ 53 ∧ t ≠ 60 ∧ e = .unknownMessageType t) := by
  unfold UserAuth.parse
  by_cases h1 : t = 50
  · subst h1; simp [mapped_err]
  by_cases h2 : t = 51
  · subst h2; simp [mapped_err]
  by_cases h3 : t = 52
  · subst h3; simp [mapped_err]
  by_cases h4 : t = 53
  · subst h4; simp [mapped_err]
  by_cases h5 : t = 60
  · subst h5; simp [mapped_err]
  simp [h1, h2, h3, h4, h5, @eq_comm _ e]

theorem Channel.parse_err {t : Byte} {d : Bytes} {e} : Channel.parse t d = err e ↔
    (t = 90 ∧ ∃ e', Chan.Open.parse d = err e' ∧ e = .open e') ∨
    (t = 91 ∧ ∃ e', Chan.OpenConfirmation.parse d = err e' ∧ e = .openConfirmation e') ∨
    (t = 92 ∧ ∃ e', Chan.OpenFailure.parse d = err e' ∧ e = .openFailure e') ∨
    (t = 93 ∧ ∃ e', Chan.WindowAdjust.parse d = err e' ∧ e = .windowAdjust e') ∨
    (t = 94 ∧ ∃ e', Chan.Data.parse d = err e' ∧ e = .data e') ∨
    (t = 95 ∧ ∃ e', Chan.ExtendedData.parse d = err e' ∧ e = .extendedData e') ∨
    (t = 96 ∧ ∃ e', Chan.ChanOnly.parse d = err e' ∧ e = .eof e') ∨
    (t = 97 ∧ ∃ e', Chan.ChanOnly.parse d = err e' ∧ e = .close e') ∨
    (t = 98 ∧ ∃ e', Chan.Request.parse d = err e' ∧ e = .request e') ∨
    (t = 99 ∧ ∃ e', Chan.ChanOnly.parse d = err e' ∧ e = .success e') ∨
    (t = 100 ∧ ∃ e', Chan.ChanOnly.parse d = err e' ∧ e = .failure e') ∨
    (t ≠ 90 ∧ t ≠ 91 ∧ t ≠ 92 ∧ t ≠ 93 ∧ t ≠ 94 ∧ t ≠ 95 ∧ t ≠ 96 ∧ t ≠ 97 ∧ t ≠ 98 ∧ t ≠ 99 ∧ t ≠ 100 ∧
      e = .unknownMessageType t) := by
  unfold Channel.parse
  by_cases h90 : t = 90
  · subst h90; simp [mapped_err]
  by_cases h91 : t = 91
  · subst h91; simp [mapped_err]
  by_cases h92 : t = 92
  · subst h92; simp [mapped_err]
  by_cases h93 : t = 93
  · subst h93; simp [mapped_err]
  by_cases h94 : t = 94
  · subst h94; simp [mapped_err]
  by_cases h95 : t = 95
  · subst h95; simp [mapped_err]
  by_cases h96 : t = 96
  · subst h96; simp [mapped_err]
  by_cases h97 : t = 97
  · subst h97; simp [mapped_err]
  by_cases h98 : t = 98
  · subst h98; simp [mapped_err]
  by_cases h99 : t = 99
  · subst h99; simp [mapped_err]
  by_cases h100 : t = 100
  · subst h100; simp [mapped_err]
  simp [h90, h91, h92, h93, h94, h95, h96, h97, h98, h99, h100, @eq_comm _ e]

theorem byte_eq {t : Byte} {n : Nat} (hn : n < 256) : t = UInt8.ofNat n ↔ t.toNat = n := by
  constructor
  · rintro rfl
    rw [UInt8.ofNat_toNat_mod]
    omega
  · rintro rfl
    simp

theorem bodyError_of {t : Byte} {d : Bytes} {e : MessageParseError} (h : Message.parse (t :: d) = err e) :
    Spec.ParseError (t :: d) e := by
  rw [parse_cons] at h
  replace h := ite_or h
  rcases h with ⟨rfl, h⟩ | ⟨n1, h⟩
  · replace h := mapped_err.mp h
    obtain ⟨e', h, rfl⟩ := h
    exact .body (t := 1) (.disconnect (Msg.Disconnect.parse_err.mp h))
  replace h := ite_or h
  rcases h with ⟨rfl, h⟩ | ⟨n2, h⟩
  · replace h := mapped_err.mp h
    obtain ⟨e', h, rfl⟩ := h
    exact .body (t := 2) (.ignore (Msg.Ignore.parse_err.mp h))
  replace h := ite_or h
  rcases h with ⟨rfl, h⟩ | ⟨n3, h⟩
  · replace h := mapped_err.mp h
    obtain ⟨e', h, rfl⟩ := h
    exact .body (t := 3) (.unimplemented (Msg.Unimplemented.parse_err.mp h))
  replace h := ite_or h
  rcases h with ⟨rfl, h⟩ | ⟨n4, h⟩
  · replace h := mapped_err.mp h
    obtain ⟨e', h, rfl⟩ := h
    replace h := Msg.Debug.parse_err.mp h
    rcases h with ⟨hs, rfl⟩ | ⟨a, m, l, rest, hw, hu, rfl⟩ | ⟨a, m, l, rest, hw, hu, hr, rfl⟩
    · exact .body (t := 4) (.debugShort hs)
    · exact .body (t := 4) (.debugText hw hu)
    · exact .body (t := 4) (.debugLong hw hu hr)
  replace h := ite_or h
  rcases h with ⟨rfl, h⟩ | ⟨n5, h⟩
  · replace h := mapped_err.mp h
    obtain ⟨e', h, rfl⟩ := h
    exact .body (t := 5) (.serviceRequest (Msg.Service.parse_err.mp h))
  replace h := ite_or h
  rcases h with ⟨rfl, h⟩ | ⟨n6, h⟩
  · replace h := mapped_err.mp h
    obtain ⟨e', h, rfl⟩ := h
    exact .body (t := 6) (.serviceAccept (Msg.Service.parse_err.mp h))
  replace h := ite_or h
  rcases h with ⟨rfl, h⟩ | ⟨n20, h⟩
  · replace h := mapped_err.mp h
    obtain ⟨e', h, rfl⟩ := h
    exact .body (t := 20) (.kexInit (Kex.KexInit.parse_err.mp h))
  replace h := ite_or h
  rcases h with ⟨rfl, h⟩ | ⟨n21, h⟩
  · replace h := mapped_err.mp h
    obtain ⟨e', h, rfl⟩ := h
    obtain ⟨hd, rfl⟩ := Kex.NewKeys.parse_err.mp h
    exact .body (t := 21) (.newKeys hd)
  replace h := ite_or h
  rcases h with ⟨rfl, h⟩ | ⟨n30, h⟩
  · replace h := mapped_err.mp h
    obtain ⟨e', h, rfl⟩ := h
    exact .body (t := 30) (.kexEcdhInit (Kex.EcdhInit.parse_err.mp h))
  replace h := ite_or h
  rcases h with ⟨rfl, h⟩ | ⟨n31, h⟩
  · replace h := mapped_err.mp h
    obtain ⟨e', h, rfl⟩ := h
    replace h := Kex.EcdhReply.parse_err.mp h
    rcases h with ⟨hs, rfl⟩ | ⟨k, rest, hw, rfl⟩
    · exact .body (t := 31) (.kexEcdhReply hs)
    · exact .body (t := 31) (.kexEcdhReplyBad hw)
  have k : t.toNat ≠ 1 ∧ t.toNat ≠ 2 ∧ t.toNat ≠ 3 ∧ t.toNat ≠ 4 ∧ t.toNat ≠ 5 ∧ t.toNat ≠ 6 ∧ t.toNat ≠ 20 ∧ t.toNat ≠ 21 ∧ t.toNat ≠ 30 ∧ t.toNat ≠ 31 :=
    ⟨fun h => n1 ((byte_eq (by decide)).mpr h), fun h => n2 ((byte_eq (by decide)).mpr h), fun h => n3 ((byte_eq (by decide)).mpr h), fun h => n4 ((byte_eq (by decide)).mpr h), fun h => n5 ((byte_eq (by decide)).mpr h), fun h => n6 ((byte_eq (by decide)).mpr h), fun h => n20 ((byte_eq (by decide)).mpr h), fun h => n21 ((byte_eq (by decide)).mpr h), fun h => n30 ((byte_eq (by decide)).mpr h), fun h => n31 ((byte_eq (by decide)).mpr h)⟩
  replace h := ite_or h
  rcases h with ⟨hr, h⟩ | ⟨hr, h⟩
  · replace h := mapped_err.mp h
    obtain ⟨e', h, rfl⟩ := h
    replace h := UserAuth.parse_err.mp h
    rcases h with ⟨rfl, e, h, rfl⟩ | ⟨rfl, e, h, rfl⟩ | ⟨rfl, e, h, rfl⟩ | ⟨rfl, e, h, rfl⟩ |
      ⟨rfl, e, h, rfl⟩ | ⟨m1, m2, m3, m4, m5, rfl⟩
    · replace h := Auth.Request.parse_err.mp h
      rcases h with ⟨hs, rfl⟩ | ⟨u, s, m, rest, hw, hm⟩
      · exact .body (t := 50) (.request hs)
      · exact .body (t := 50) (.method hw hm)
    · replace h := Auth.Failure.parse_err.mp h
      rcases h with h | ⟨l, a, e', hw, hb, rfl⟩
      · exact .body (t := 51) (.failure h)
      · exact .body (t := 51) (.failureNames hw hb)
    · obtain ⟨hd, rfl⟩ := Auth.Success.parse_err.mp h
      exact .body (t := 52) (.success hd)
    · exact .body (t := 53) (.banner (Auth.Banner.parse_err.mp h))
    · exact .body (t := 60) (.publicKeyOk (Auth.PublicKeyOk.parse_err.mp h))
    · have m : t.toNat ≠ 50 ∧ t.toNat ≠ 51 ∧ t.toNat ≠ 52 ∧ t.toNat ≠ 53 ∧ t.toNat ≠ 60 :=
        ⟨fun h => m1 ((byte_eq (by decide)).mpr h), fun h => m2 ((byte_eq (by decide)).mpr h),
          fun h => m3 ((byte_eq (by decide)).mpr h), fun h => m4 ((byte_eq (by decide)).mpr h),
          fun h => m5 ((byte_eq (by decide)).mpr h)⟩
      have h1 : 50 ≤ t.toNat := UInt8.le_iff_toNat_le.mp hr.1
      have h2 : t.toNat ≤ 79 := UInt8.le_iff_toNat_le.mp hr.2
      refine .authNumber ?_ h1 h2
      simp only [Spec.Number, List.mem_cons, List.not_mem_nil, or_false]
      omega
  have hr : ¬ (50 ≤ t.toNat ∧ t.toNat ≤ 79) := fun h =>
    hr ⟨UInt8.le_iff_toNat_le.mpr h.1, UInt8.le_iff_toNat_le.mpr h.2⟩
  replace h := ite_or h
  rcases h with ⟨hc, h⟩ | ⟨hc, h⟩
  · replace h := mapped_err.mp h
    obtain ⟨e', h, rfl⟩ := h
    replace h := Channel.parse_err.mp h
    rcases h with ⟨rfl, e, h, rfl⟩ | ⟨rfl, e, h, rfl⟩ | ⟨rfl, e, h, rfl⟩ | ⟨rfl, e, h, rfl⟩ |
      ⟨rfl, e, h, rfl⟩ | ⟨rfl, e, h, rfl⟩ | ⟨rfl, e, h, rfl⟩ | ⟨rfl, e, h, rfl⟩ | ⟨rfl, e, h, rfl⟩ |
      ⟨rfl, e, h, rfl⟩ | ⟨rfl, e, h, rfl⟩ | ⟨m0, m1, m2, m3, m4, m5, m6, m7, m8, m9, m10, rfl⟩
    · exact .body (t := 90) (.open (Chan.Open.parse_err.mp h))
    · obtain ⟨hs, rfl⟩ := Chan.OpenConfirmation.parse_err.mp h
      exact .body (t := 91) (.openConfirmation hs)
    · replace h := Chan.OpenFailure.parse_err.mp h
      rcases h with h | ⟨c, r, s, l, hw, hu, rfl⟩
      · exact .body (t := 92) (.openFailure h)
      · exact .body (t := 92) (.openFailureText hw hu)
    · exact .body (t := 93) (.windowAdjust (Chan.WindowAdjust.parse_err.mp h))
    · exact .body (t := 94) (.data (Chan.Data.parse_err.mp h))
    · exact .body (t := 95) (.extendedData (Chan.ExtendedData.parse_err.mp h))
    · exact .body (t := 96) (.eof (Chan.ChanOnly.parse_err.mp h))
    · exact .body (t := 97) (.close (Chan.ChanOnly.parse_err.mp h))
    · obtain ⟨hs, rfl⟩ := Chan.Request.parse_err.mp h
      exact .body (t := 98) (.channelRequest hs)
    · exact .body (t := 99) (.channelSuccess (Chan.ChanOnly.parse_err.mp h))
    · exact .body (t := 100) (.channelFailure (Chan.ChanOnly.parse_err.mp h))
    · have h1 : 90 ≤ t.toNat := UInt8.le_iff_toNat_le.mp hc.1
      have h2 : t.toNat ≤ 127 := UInt8.le_iff_toNat_le.mp hc.2
      have m : t.toNat ≠ 90 ∧ t.toNat ≠ 91 ∧ t.toNat ≠ 92 ∧ t.toNat ≠ 93 ∧ t.toNat ≠ 94 ∧ t.toNat ≠ 95 ∧
          t.toNat ≠ 96 ∧ t.toNat ≠ 97 ∧ t.toNat ≠ 98 ∧ t.toNat ≠ 99 ∧ t.toNat ≠ 100 :=
        ⟨fun h => m0 ((byte_eq (by decide)).mpr h), fun h => m1 ((byte_eq (by decide)).mpr h),
          fun h => m2 ((byte_eq (by decide)).mpr h), fun h => m3 ((byte_eq (by decide)).mpr h),
          fun h => m4 ((byte_eq (by decide)).mpr h), fun h => m5 ((byte_eq (by decide)).mpr h),
          fun h => m6 ((byte_eq (by decide)).mpr h), fun h => m7 ((byte_eq (by decide)).mpr h),
          fun h => m8 ((byte_eq (by decide)).mpr h), fun h => m9 ((byte_eq (by decide)).mpr h),
          fun h => m10 ((byte_eq (by decide)).mpr h)⟩
      refine .channelNumber ?_ h1 h2
      simp only [Spec.Number, List.mem_cons, List.not_mem_nil, or_false]
      omega
  have hc : ¬ (90 ≤ t.toNat ∧ t.toNat ≤ 127) := fun h =>
    hc ⟨UInt8.le_iff_toNat_le.mpr h.1, UInt8.le_iff_toNat_le.mpr h.2⟩
  cases h
  refine .number ?_ hr hc
  simp only [Spec.Number, List.mem_cons, List.not_mem_nil, or_false]
  omega

theorem of_bodyError {t : Byte} {d : Bytes} {e : MessageParseError} (h : Spec.BodyError d t.toNat e) :
    Message.parse (t :: d) = err e := by
  rw [parse_cons]
  generalize hn : t.toNat = n at h
  cases h with
  | disconnect h =>
    obtain rfl : t = 1 := (byte_eq (by decide)).mpr hn
    exact mapped_err.mpr ⟨_, Msg.Disconnect.parse_err.mpr h, rfl⟩
  | ignore h =>
    obtain rfl : t = 2 := (byte_eq (by decide)).mpr hn
    exact mapped_err.mpr ⟨_, Msg.Ignore.parse_err.mpr h, rfl⟩
  | unimplemented h =>
    obtain rfl : t = 3 := (byte_eq (by decide)).mpr hn
    exact mapped_err.mpr ⟨_, Msg.Unimplemented.parse_err.mpr h, rfl⟩
  | debugShort h =>
    obtain rfl : t = 4 := (byte_eq (by decide)).mpr hn
    exact mapped_err.mpr ⟨_, Msg.Debug.parse_err.mpr (.inl ⟨h, rfl⟩), rfl⟩
  | debugText h h1 =>
    obtain rfl : t = 4 := (byte_eq (by decide)).mpr hn
    exact mapped_err.mpr ⟨_, Msg.Debug.parse_err.mpr (.inr (.inl ⟨_, _, _, _, h, h1, rfl⟩)), rfl⟩
  | debugLong h h1 h2 =>
    obtain rfl : t = 4 := (byte_eq (by decide)).mpr hn
    exact mapped_err.mpr ⟨_, Msg.Debug.parse_err.mpr (.inr (.inr ⟨_, _, _, _, h, h1, h2, rfl⟩)), rfl⟩
  | serviceRequest h =>
    obtain rfl : t = 5 := (byte_eq (by decide)).mpr hn
    exact mapped_err.mpr ⟨_, Msg.Service.parse_err.mpr h, rfl⟩
  | serviceAccept h =>
    obtain rfl : t = 6 := (byte_eq (by decide)).mpr hn
    exact mapped_err.mpr ⟨_, Msg.Service.parse_err.mpr h, rfl⟩
  | kexInit h =>
    obtain rfl : t = 20 := (byte_eq (by decide)).mpr hn
    exact mapped_err.mpr ⟨_, Kex.KexInit.parse_err.mpr h, rfl⟩
  | newKeys h =>
    obtain rfl : t = 21 := (byte_eq (by decide)).mpr hn
    exact mapped_err.mpr ⟨_, Kex.NewKeys.parse_err.mpr ⟨h, rfl⟩, rfl⟩
  | kexEcdhInit h =>
    obtain rfl : t = 30 := (byte_eq (by decide)).mpr hn
    exact mapped_err.mpr ⟨_, Kex.EcdhInit.parse_err.mpr h, rfl⟩
  | kexEcdhReply h =>
    obtain rfl : t = 31 := (byte_eq (by decide)).mpr hn
    exact mapped_err.mpr ⟨_, Kex.EcdhReply.parse_err.mpr (.inl ⟨h, rfl⟩), rfl⟩
  | kexEcdhReplyBad h =>
    obtain rfl : t = 31 := (byte_eq (by decide)).mpr hn
    exact mapped_err.mpr ⟨_, Kex.EcdhReply.parse_err.mpr (.inr ⟨_, _, h, rfl⟩), rfl⟩
  | request h =>
    obtain rfl : t = 50 := (byte_eq (by decide)).mpr hn
    exact mapped_err.mpr ⟨_, UserAuth.parse_err.mpr (.inl ⟨rfl, _, Auth.Request.parse_err.mpr (.inl ⟨h, rfl⟩), rfl⟩), rfl⟩
  | method h h1 =>
    obtain rfl : t = 50 := (byte_eq (by decide)).mpr hn
    exact mapped_err.mpr ⟨_, UserAuth.parse_err.mpr (.inl ⟨rfl, _, Auth.Request.parse_err.mpr (.inr ⟨_, _, _, _, h, h1⟩), rfl⟩), rfl⟩
  | failure h =>
    obtain rfl : t = 51 := (byte_eq (by decide)).mpr hn
    exact mapped_err.mpr ⟨_, UserAuth.parse_err.mpr (.inr (.inl ⟨rfl, _, Auth.Failure.parse_err.mpr (.inl h), rfl⟩)), rfl⟩
  | failureNames h h1 =>
    obtain rfl : t = 51 := (byte_eq (by decide)).mpr hn
    exact mapped_err.mpr ⟨_, UserAuth.parse_err.mpr (.inr (.inl ⟨rfl, _, Auth.Failure.parse_err.mpr (.inr ⟨_, _, _, h, h1, rfl⟩), rfl⟩)), rfl⟩
  | success h =>
    obtain rfl : t = 52 := (byte_eq (by decide)).mpr hn
    exact mapped_err.mpr ⟨_, UserAuth.parse_err.mpr (.inr (.inr (.inl ⟨rfl, _, Auth.Success.parse_err.mpr ⟨h, rfl⟩, rfl⟩))), rfl⟩
  | banner h =>
    obtain rfl : t = 53 := (byte_eq (by decide)).mpr hn
    exact mapped_err.mpr ⟨_, UserAuth.parse_err.mpr (.inr (.inr (.inr (.inl ⟨rfl, _, Auth.Banner.parse_err.mpr h, rfl⟩)))), rfl⟩
  | publicKeyOk h =>
    obtain rfl : t = 60 := (byte_eq (by decide)).mpr hn
    exact mapped_err.mpr ⟨_, UserAuth.parse_err.mpr (.inr (.inr (.inr (.inr (.inl ⟨rfl, _, Auth.PublicKeyOk.parse_err.mpr h, rfl⟩))))), rfl⟩
  | «open» h =>
    obtain rfl : t = 90 := (byte_eq (by decide)).mpr hn
    exact mapped_err.mpr ⟨_, Channel.parse_err.mpr (.inl ⟨rfl, _, Chan.Open.parse_err.mpr h, rfl⟩), rfl⟩
  | openConfirmation h =>
    obtain rfl : t = 91 := (byte_eq (by decide)).mpr hn
    exact mapped_err.mpr ⟨_, Channel.parse_err.mpr (.inr (.inl ⟨rfl, _, Chan.OpenConfirmation.parse_err.mpr ⟨h, rfl⟩, rfl⟩)), rfl⟩
  | openFailure h =>
    obtain rfl : t = 92 := (byte_eq (by decide)).mpr hn
    exact mapped_err.mpr ⟨_, Channel.parse_err.mpr (.inr (.inr (.inl ⟨rfl, _, Chan.OpenFailure.parse_err.mpr (.inl h), rfl⟩))), rfl⟩
  | openFailureText h h1 =>
    obtain rfl : t = 92 := (byte_eq (by decide)).mpr hn
    exact mapped_err.mpr ⟨_, Channel.parse_err.mpr (.inr (.inr (.inl ⟨rfl, _, Chan.OpenFailure.parse_err.mpr (.inr ⟨_, _, _, _, h, h1, rfl⟩), rfl⟩))), rfl⟩
  | windowAdjust h =>
    obtain rfl : t = 93 := (byte_eq (by decide)).mpr hn
    exact mapped_err.mpr ⟨_, Channel.parse_err.mpr (.inr (.inr (.inr (.inl ⟨rfl, _, Chan.WindowAdjust.parse_err.mpr h, rfl⟩)))), rfl⟩
  | data h =>
    obtain rfl : t = 94 := (byte_eq (by decide)).mpr hn
    exact mapped_err.mpr ⟨_, Channel.parse_err.mpr (.inr (.inr (.inr (.inr (.inl ⟨rfl, _, Chan.Data.parse_err.mpr h, rfl⟩))))), rfl⟩
  | extendedData h =>
    obtain rfl : t = 95 := (byte_eq (by decide)).mpr hn
    exact mapped_err.mpr ⟨_, Channel.parse_err.mpr (.inr (.inr (.inr (.inr (.inr (.inl ⟨rfl, _, Chan.ExtendedData.parse_err.mpr h, rfl⟩)))))), rfl⟩
  | eof h =>
    obtain rfl : t = 96 := (byte_eq (by decide)).mpr hn
    exact mapped_err.mpr ⟨_, Channel.parse_err.mpr (.inr (.inr (.inr (.inr (.inr (.inr (.inl ⟨rfl, _, Chan.ChanOnly.parse_err.mpr h, rfl⟩))))))), rfl⟩
  | close h =>
    obtain rfl : t = 97 := (byte_eq (by decide)).mpr hn
    exact mapped_err.mpr ⟨_, Channel.parse_err.mpr (.inr (.inr (.inr (.inr (.inr (.inr (.inr (.inl ⟨rfl, _, Chan.ChanOnly.parse_err.mpr h, rfl⟩)))))))), rfl⟩
  | channelRequest h =>
    obtain rfl : t = 98 := (byte_eq (by decide)).mpr hn
    exact mapped_err.mpr ⟨_, Channel.parse_err.mpr (.inr (.inr (.inr (.inr (.inr (.inr (.inr (.inr (.inl ⟨rfl, _, Chan.Request.parse_err.mpr ⟨h, rfl⟩, rfl⟩))))))))), rfl⟩
  | channelSuccess h =>
    obtain rfl : t = 99 := (byte_eq (by decide)).mpr hn
    exact mapped_err.mpr ⟨_, Channel.parse_err.mpr (.inr (.inr (.inr (.inr (.inr (.inr (.inr (.inr (.inr (.inl ⟨rfl, _, Chan.ChanOnly.parse_err.mpr h, rfl⟩)))))))))), rfl⟩
  | channelFailure h =>
    obtain rfl : t = 100 := (byte_eq (by decide)).mpr hn
    exact mapped_err.mpr ⟨_, Channel.parse_err.mpr (.inr (.inr (.inr (.inr (.inr (.inr (.inr (.inr (.inr (.inr (.inl ⟨rfl, _, Chan.ChanOnly.parse_err.mpr h, rfl⟩))))))))))), rfl⟩

instance {n : Nat} : Decidable (Spec.Number n) :=
  inferInstanceAs (Decidable (n ∈ [1, 2, 3, 4, 5, 6, 20, 21, 30, 31, 50, 51, 52, 53, 60, 90, 91, 92, 93, 94, 95, 96, 97,
    98, 99, 100]))

theorem number_ne {t : Byte} (h : ¬ Spec.Number t.toNat) (n : Byte) (hn : Spec.Number n.toNat) : t ≠ n := by
  rintro rfl
  exact h hn

theorem Message.parse_err {p : Bytes} {e : MessageParseError} : Message.parse p = err e ↔ Spec.ParseError p e := by
  cases p with
  | nil =>
    constructor
    · intro h
      cases h
      exact .empty
    · intro h
      cases h
      rfl
  | cons t d =>
    refine ⟨bodyError_of, ?_⟩
    intro h
    cases h with
    | body h => exact of_bodyError h
    | authNumber hn h1 h2 =>
      have k := fun n h => number_ne hn n h
      rw [parse_cons, if_neg (k 1 (by decide)), if_neg (k 2 (by decide)), if_neg (k 3 (by decide)),
        if_neg (k 4 (by decide)), if_neg (k 5 (by decide)), if_neg (k 6 (by decide)), if_neg (k 20 (by decide)),
        if_neg (k 21 (by decide)), if_neg (k 30 (by decide)), if_neg (k 31 (by decide)),
        if_pos ⟨UInt8.le_iff_toNat_le.mpr h1, UInt8.le_iff_toNat_le.mpr h2⟩]
      exact mapped_err.mpr ⟨_, UserAuth.parse_err.mpr (.inr (.inr (.inr (.inr (.inr ⟨k 50 (by decide), k 51 (by decide),
        k 52 (by decide), k 53 (by decide), k 60 (by decide), rfl⟩))))), rfl⟩
    | channelNumber hn h1 h2 =>
      have k := fun n h => number_ne hn n h
      rw [parse_cons, if_neg (k 1 (by decide)), if_neg (k 2 (by decide)), if_neg (k 3 (by decide)),
        if_neg (k 4 (by decide)), if_neg (k 5 (by decide)), if_neg (k 6 (by decide)), if_neg (k 20 (by decide)),
        if_neg (k 21 (by decide)), if_neg (k 30 (by decide)), if_neg (k 31 (by decide)),
        if_neg (fun h => by have := UInt8.le_iff_toNat_le.mp h.2; change t.toNat ≤ 79 at this; omega),
        if_pos ⟨UInt8.le_iff_toNat_le.mpr h1, UInt8.le_iff_toNat_le.mpr h2⟩]
      exact mapped_err.mpr ⟨_, Channel.parse_err.mpr (.inr (.inr (.inr (.inr (.inr (.inr (.inr (.inr (.inr (.inr (.inr
        ⟨k 90 (by decide), k 91 (by decide), k 92 (by decide), k 93 (by decide), k 94 (by decide), k 95 (by decide),
        k 96 (by decide), k 97 (by decide), k 98 (by decide), k 99 (by decide), k 100 (by decide), rfl⟩))))))))))), rfl⟩
    | number hn h1 h2 =>
      have k := fun n h => number_ne hn n h
      rw [parse_cons, if_neg (k 1 (by decide)), if_neg (k 2 (by decide)), if_neg (k 3 (by decide)),
        if_neg (k 4 (by decide)), if_neg (k 5 (by decide)), if_neg (k 6 (by decide)), if_neg (k 20 (by decide)),
        if_neg (k 21 (by decide)), if_neg (k 30 (by decide)), if_neg (k 31 (by decide)),
        if_neg (fun h : (50 : Byte) ≤ t ∧ t ≤ 79 => h1 ⟨UInt8.le_iff_toNat_le.mp h.1, UInt8.le_iff_toNat_le.mp h.2⟩),
        if_neg (fun h : (90 : Byte) ≤ t ∧ t ≤ 127 => h2 ⟨UInt8.le_iff_toNat_le.mp h.1, UInt8.le_iff_toNat_le.mp h.2⟩)]

end Nora
