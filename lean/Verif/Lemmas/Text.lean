import Verif.Lemmas.Base
/-
Lemmas about UTF-8, ASCII and name-lists.
-/
namespace Nora
open R

/-! ### ASCII and UTF-8 -/

theorem isAscii_iff {s : Bytes} : Utf8.isAscii s = true ↔ Spec.Ascii s := by
  simp only [Utf8.isAscii, List.all_eq_true, decide_eq_true_eq, Spec.Ascii, UInt8.lt_iff_toNat_lt]
  rfl

theorem Utf8.valid_ascii_cons {a : Byte} {t : Bytes} (h : a.toNat < 128) :
    Utf8.valid (a :: t) = Utf8.valid t := by
  rw [Utf8.valid.eq_def]
  exact if_pos (by rw [UInt8.lt_iff_toNat_lt]; exact h)

theorem Utf8.valid_of_ascii {s : Bytes} (h : Spec.Ascii s) : Utf8.valid s = true := by
  induction s with
  | nil => rfl
  | cons a t ih =>
    rw [Utf8.valid_ascii_cons (h a (by simp))]
    exact ih (fun b hb => h b (by simp [hb]))

theorem Utf8.valid_enc {c : Nat} (h : Spec.Scalar c) (t : Bytes) :
    Utf8.valid (Spec.utf8Enc c ++ t) = Utf8.valid t := by
  unfold Spec.Scalar at h
  unfold Spec.utf8Enc
  split_ifs with h1 h2 h3
  · rw [List.singleton_append, Utf8.valid_ascii_cons (by simp; omega)]
  · simp only [List.cons_append, List.nil_append]
    rw [Utf8.valid]
    rw [if_neg (by rw [UInt8.lt_iff_toNat_lt]; simp; omega)]
    rw [if_pos (by simp [UInt8.le_iff_toNat_le]; omega)]
    simp [Utf8.cont, UInt8.le_iff_toNat_le]
    intro _; omega
  · simp only [List.cons_append, List.nil_append]
    rw [Utf8.valid]
    rw [if_neg (by rw [UInt8.lt_iff_toNat_lt]; simp; omega)]
    rw [if_neg (by simp [UInt8.le_iff_toNat_le]; omega)]
    rw [if_pos (by simp [UInt8.le_iff_toNat_le]; omega)]
    simp [Utf8.cont, UInt8.le_iff_toNat_le, ← UInt8.toNat_inj]
    intro _; omega
  · simp only [List.cons_append, List.nil_append]
    rw [Utf8.valid]
    rw [if_neg (by rw [UInt8.lt_iff_toNat_lt]; simp; omega)]
    rw [if_neg (by simp [UInt8.le_iff_toNat_le]; omega)]
    rw [if_neg (by simp [UInt8.le_iff_toNat_le]; omega)]
    rw [if_pos (by simp [UInt8.le_iff_toNat_le]; omega)]
    simp [Utf8.cont, UInt8.le_iff_toNat_le, ← UInt8.toNat_inj]
    intro _; omega

theorem Utf8.dec_of_valid (n : Nat) : ∀ s : Bytes, s.length ≤ n → Utf8.valid s = true →
    s ≠ [] → ∃ c t, Spec.Scalar c ∧ s = Spec.utf8Enc c ++ t ∧ Utf8.valid t = true := by
  intro s _ hv hne
  match s, hne with
  | a :: t, _ =>
    have ha := a.toNat_lt
    rw [Utf8.valid.eq_def] at hv
    dsimp only at hv
    split_ifs at hv with h1 h2 h3 h4
    · rw [UInt8.lt_iff_toNat_lt] at h1
      change a.toNat < 128 at h1
      refine ⟨a.toNat, t, ?_, ?_, hv⟩
      · unfold Spec.Scalar; omega
      · simp [Spec.utf8Enc, h1]
    · simp only [UInt8.lt_iff_toNat_lt, UInt8.le_iff_toNat_le, Bool.and_eq_true,
        decide_eq_true_eq, UInt8.reduceToNat] at h1 h2
      match t, hv with
      | b :: t, hv =>
        have hb := b.toNat_lt
        simp only [Utf8.cont, UInt8.le_iff_toNat_le, Bool.and_eq_true, decide_eq_true_eq,
          UInt8.reduceToNat] at hv
        refine ⟨(a.toNat - 0xC0) * 64 + (b.toNat - 0x80), t, ?_, ?_, hv.2⟩
        · unfold Spec.Scalar; omega
        · unfold Spec.utf8Enc
          rw [if_neg (by omega), if_pos (by omega)]
          simp only [List.cons_append, List.nil_append, List.cons.injEq, and_true,
            ← UInt8.toNat_inj, UInt8.toNat_ofNat']
          omega
      | [], hv => simp at hv
    · simp only [UInt8.lt_iff_toNat_lt, UInt8.le_iff_toNat_le, Bool.and_eq_true,
        decide_eq_true_eq, UInt8.reduceToNat] at h1 h2 h3
      match t, hv with
      | b :: c :: t, hv =>
        have hb := b.toNat_lt
        have hc := c.toNat_lt
        simp only [Utf8.cont, UInt8.le_iff_toNat_le, Bool.and_eq_true, Bool.or_eq_true,
          decide_eq_true_eq, beq_iff_eq, ← UInt8.toNat_inj, UInt8.reduceToNat] at hv
        refine ⟨(a.toNat - 0xE0) * 4096 + (b.toNat - 0x80) * 64 + (c.toNat - 0x80), t, ?_, ?_,
          hv.2⟩
        · unfold Spec.Scalar; omega
        · unfold Spec.utf8Enc
          rw [if_neg (by omega), if_neg (by omega), if_pos (by omega)]
          simp only [List.cons_append, List.nil_append, List.cons.injEq, and_true,
            ← UInt8.toNat_inj, UInt8.toNat_ofNat']
          omega
      | [_], hv => simp at hv
      | [], hv => simp at hv
    · simp only [UInt8.lt_iff_toNat_lt, UInt8.le_iff_toNat_le, Bool.and_eq_true,
        decide_eq_true_eq, UInt8.reduceToNat] at h1 h2 h3 h4
      match t, hv with
      | b :: c :: d :: t, hv =>
        have hb := b.toNat_lt
        have hc := c.toNat_lt
        have hd := d.toNat_lt
        simp only [Utf8.cont, UInt8.le_iff_toNat_le, Bool.and_eq_true, Bool.or_eq_true,
          decide_eq_true_eq, beq_iff_eq, ← UInt8.toNat_inj, UInt8.reduceToNat] at hv
        refine ⟨(a.toNat - 0xF0) * 262144 + (b.toNat - 0x80) * 4096 + (c.toNat - 0x80) * 64
          + (d.toNat - 0x80), t, ?_, ?_, hv.2⟩
        · unfold Spec.Scalar; omega
        · unfold Spec.utf8Enc
          rw [if_neg (by omega), if_neg (by omega), if_neg (by omega)]
          simp only [List.cons_append, List.nil_append, List.cons.injEq, and_true,
            ← UInt8.toNat_inj, UInt8.toNat_ofNat']
          omega
      | [_, _], hv => simp at hv
      | [_], hv => simp at hv
      | [], hv => simp at hv

theorem utf8Enc_ne_nil (c : Nat) : Spec.utf8Enc c ≠ [] := by
  unfold Spec.utf8Enc; split_ifs <;> simp

theorem Utf8.valid_iff {s : Bytes} : Utf8.valid s = true ↔ Spec.Utf8 s := by
  constructor
  · intro h
    induction hn : s.length using Nat.strongRecOn generalizing s with
    | _ n ih =>
      by_cases hs : s = []
      · exact ⟨[], by simp, by simp [hs]⟩
      · obtain ⟨c, t, hc, rfl, ht⟩ := Utf8.dec_of_valid s.length s (Nat.le_refl _) h hs
        have hl : 0 < (Spec.utf8Enc c).length := List.length_pos_iff.mpr (utf8Enc_ne_nil c)
        obtain ⟨cs, hcs, rfl⟩ := ih t.length (by simp at hn; omega) ht rfl
        exact ⟨c :: cs, by simpa [hc] using hcs, by simp⟩
  · rintro ⟨cs, hcs, rfl⟩
    induction cs with
    | nil => rfl
    | cons c cs ih =>
      simp only [List.map_cons, List.flatten_cons]
      rw [Utf8.valid_enc (hcs c (by simp))]
      exact ih (fun d hd => hcs d (by simp [hd]))

theorem fromUtf8_eq_ok {s r : Bytes} : Utf8.fromUtf8 s = ok r ↔ Spec.Utf8 s ∧ r = s := by
  unfold Utf8.fromUtf8
  rw [← Utf8.valid_iff]
  split_ifs with h <;> simp [h, eq_comm]

theorem fromUtf8_ne_panic {s : Bytes} : Utf8.fromUtf8 s ≠ panic := by
  unfold Utf8.fromUtf8; split_ifs <;> simp

theorem AsciiStr.tryFrom_eq_ok {s r : Bytes} :
    AsciiStr.tryFrom s = ok r ↔ Spec.Ascii s ∧ r = s := by
  unfold AsciiStr.tryFrom
  split_ifs with h
  · rw [isAscii_iff] at h
    simp only [Utf8.fromUtf8, Utf8.valid_of_ascii h, if_true, ok_unwrap, R.ok.injEq, h, true_and,
      eq_comm]
  · rw [isAscii_iff] at h
    simp [h]

theorem AsciiStr.tryFrom_ne_panic {s : Bytes} : AsciiStr.tryFrom s ≠ panic := by
  unfold AsciiStr.tryFrom
  split_ifs with h
  · rw [isAscii_iff] at h
    simp [Utf8.fromUtf8, Utf8.valid_of_ascii h]
  · simp

/-! ### name-lists -/

/-- the checks of `NameList::try_from` after the ASCII check -/
def CommaOk (s : Bytes) : Prop :=
  anyDoubleComma s = false ∧ s.head? ≠ some 44 ∧ s.getLast? ≠ some 44

theorem anyDoubleComma_append {a r : Bytes} (ha : (44 : Byte) ∉ a) :
    anyDoubleComma (a ++ r) = anyDoubleComma r := by
  induction a with
  | nil => rfl
  | cons x t ih =>
    simp only [List.mem_cons, not_or] at ha
    rw [List.cons_append]
    cases h : t ++ r with
    | nil =>
      have : r = [] := by simpa using (List.append_eq_nil_iff.mp h).2
      simp [this, anyDoubleComma]
    | cons y u =>
      rw [anyDoubleComma, ← h, ih ha.2]
      have : (x == 44) = false := by simpa using Ne.symm ha.1
      simp [this]

theorem anyDoubleComma_comma {r : Bytes} :
    anyDoubleComma (44 :: r) = (r.head? == some 44 || anyDoubleComma r) := by
  cases r with
  | nil => simp [anyDoubleComma]
  | cons b t => simp [anyDoubleComma]

theorem joinComma_cons {n : Bytes} {ns : List Bytes} (h : ns ≠ []) :
    Spec.joinComma (n :: ns) = n ++ 44 :: Spec.joinComma ns := by
  cases ns with
  | nil => exact absurd rfl h
  | cons a t => rfl

theorem joinComma_ne_nil {ns : List Bytes} (h : ns ≠ []) (hn : ∀ n ∈ ns, Spec.Name n) :
    Spec.joinComma ns ≠ [] := by
  cases ns with
  | nil => exact absurd rfl h
  | cons a t =>
    have ha := (hn a (by simp)).1
    cases t with
    | nil => simpa [Spec.joinComma] using ha
    | cons b t => simp [Spec.joinComma]

theorem commaOk_join {names : List Bytes} (h : ∀ n ∈ names, Spec.Name n) :
    CommaOk (Spec.joinComma names) := by
  induction names with
  | nil => simp [CommaOk, Spec.joinComma, anyDoubleComma]
  | cons n ns ih =>
    have hn := h n (by simp)
    have ih := ih (fun m hm => h m (by simp [hm]))
    obtain ⟨hne, -, hnc⟩ := hn
    have hh : n.head? ≠ some 44 := by
      intro hh
      exact hnc (List.mem_of_mem_head? hh)
    by_cases hs : ns = []
    · subst hs
      refine ⟨?_, hh, ?_⟩
      · simpa [Spec.joinComma, anyDoubleComma] using anyDoubleComma_append (r := []) hnc
      · intro hl
        exact hnc (List.mem_of_getLast? hl)
    · rw [joinComma_cons hs]
      have hjn := joinComma_ne_nil hs (fun m hm => h m (by simp [hm]))
      obtain ⟨i1, i2, i3⟩ := ih
      refine ⟨?_, ?_, ?_⟩
      · rw [anyDoubleComma_append hnc, anyDoubleComma_comma, i1]
        simpa using i2
      · cases n with
        | nil => exact absurd rfl hne
        | cons a t => simpa using hh
      · rw [List.getLast?_append, List.getLast?_cons]
        cases hg : (Spec.joinComma ns).getLast? with
        | none => exact absurd (List.getLast?_eq_none_iff.mp hg) hjn
        | some x => rw [hg] at i3; simpa using i3

theorem exists_comma_split {s : Bytes} (h : (44 : Byte) ∈ s) :
    ∃ a r, s = a ++ 44 :: r ∧ (44 : Byte) ∉ a := by
  obtain ⟨a, r, rfl, h'⟩ := List.eq_append_cons_of_mem h
  exact ⟨a, r, rfl, h'⟩

theorem join_of_commaOk {s : Bytes} (ha : Spec.Ascii s) (h : CommaOk s) : Spec.NameListOk s := by
  induction hn : s.length using Nat.strongRecOn generalizing s with
  | _ n ih =>
    by_cases hs : s = []
    · exact ⟨[], by simp, by simp [hs, Spec.joinComma]⟩
    by_cases hc : (44 : Byte) ∈ s
    · obtain ⟨a, r, rfl, hna⟩ := exists_comma_split hc
      obtain ⟨h1, h2, h3⟩ := h
      rw [anyDoubleComma_append hna, anyDoubleComma_comma] at h1
      simp only [Bool.or_eq_false_iff, beq_eq_false_iff_ne] at h1
      have hane : a ≠ [] := by
        rintro rfl; simp at h2
      have hrne : r ≠ [] := by
        rintro rfl; simp at h3
      have hl : r.getLast? ≠ some 44 := by
        rw [List.getLast?_append, List.getLast?_cons] at h3
        cases hg : r.getLast? with
        | none => simp
        | some x => rw [hg] at h3; simpa using h3
      obtain ⟨names, hnames, rfl⟩ :=
        ih r.length (by simp at hn; omega) (fun b hb => ha b (by simp [hb])) ⟨h1.2, h1.1, hl⟩ rfl
      have hnn : names ≠ [] := by
        rintro rfl; exact hrne rfl
      refine ⟨a :: names, ?_, ?_⟩
      · intro m hm
        rcases List.mem_cons.mp hm with rfl | hm
        · exact ⟨hane, fun b hb => ha b (by simp [hb]), hna⟩
        · exact hnames m hm
      · rw [joinComma_cons hnn]
    · exact ⟨[s], by simpa using ⟨hs, ha, hc⟩, rfl⟩

theorem ascii_join {names : List Bytes} (h : ∀ n ∈ names, Spec.Name n) :
    Spec.Ascii (Spec.joinComma names) := by
  induction names with
  | nil => simp [Spec.joinComma, Spec.Ascii]
  | cons n ns ih =>
    have hn := h n (by simp)
    have ih := ih (fun m hm => h m (by simp [hm]))
    by_cases hs : ns = []
    · subst hs; exact hn.2.1
    · rw [joinComma_cons hs]
      intro b hb
      simp only [List.mem_append, List.mem_cons] at hb
      rcases hb with hb | rfl | hb
      · exact hn.2.1 b hb
      · decide
      · exact ih b hb

theorem nameListOk_iff {s : Bytes} : Spec.NameListOk s ↔ Spec.Ascii s ∧ CommaOk s := by
  constructor
  · rintro ⟨names, h, rfl⟩
    exact ⟨ascii_join h, commaOk_join h⟩
  · rintro ⟨h1, h2⟩
    exact join_of_commaOk h1 h2

theorem NameList.tryFrom_eq_ok {s : Bytes} {l : NameList} :
    NameList.tryFrom s = ok l ↔ Spec.NameListOk s ∧ l = ⟨s⟩ := by
  rw [nameListOk_iff]
  unfold NameList.tryFrom CommaOk
  by_cases h1 : Spec.Ascii s
  · have h1' := isAscii_iff.mpr h1
    simp only [h1', Utf8.fromUtf8, Utf8.valid_of_ascii h1, if_true, ok_unwrap, ok_map]
    by_cases h2 : anyDoubleComma s = true
    · simp [h2]
    · simp only [Bool.not_true, Bool.false_eq_true, if_false, h2, h1, true_and]
      by_cases h3 : (s.head? == some 44 || s.getLast? == some 44) = true
      · simp only [h3, if_true]
        simp only [Bool.or_eq_true, beq_iff_eq] at h3
        constructor
        · intro h; cases h
        · rintro ⟨⟨h4, h5⟩, _⟩
          rcases h3 with h3 | h3
          · exact absurd h3 h4
          · exact absurd h3 h5
      · simp only [h3]
        simp only [Bool.or_eq_true, beq_iff_eq, not_or] at h3
        simp [h3, eq_comm]
  · have h1' : Utf8.isAscii s = false := by
      cases h : Utf8.isAscii s
      · rfl
      · exact absurd (isAscii_iff.mp h) h1
    simp [h1', h1]

theorem NameList.tryFrom_ne_panic {s : Bytes} : NameList.tryFrom s ≠ panic := by
  unfold NameList.tryFrom
  split_ifs with h1
  · simp
  · simp
  · simp
  · have : Spec.Ascii s := isAscii_iff.mp (by simpa using h1)
    simp [Utf8.fromUtf8, Utf8.valid_of_ascii this]

theorem findIdx_comma {a r : Bytes} (h : (44 : Byte) ∉ a) :
    (a ++ 44 :: r).findIdx? (· == 44) = some a.length := by
  induction a with
  | nil => rfl
  | cons x t ih =>
    simp only [List.mem_cons, not_or] at h
    have : (x == 44) = false := by simpa using Ne.symm h.1
    simp only [List.cons_append, List.findIdx?_cons, this, ih h.2]
    simp

theorem NameListIter.next_join {n : Bytes} {ns : List Bytes} (hn : Spec.Name n) :
    NameListIter.next (Spec.joinComma (n :: ns)) = ok (some (n, Spec.joinComma ns)) := by
  obtain ⟨hne, -, hnc⟩ := hn
  unfold NameListIter.next
  by_cases hs : ns = []
  · subst hs
    have : n.findIdx? (· == 44) = none := by
      rw [List.findIdx?_eq_none_iff]
      intro x hx
      simp only [beq_eq_false_iff_ne]
      rintro rfl; exact hnc hx
    simp [Spec.joinComma, hne, this]
  · rw [joinComma_cons hs, findIdx_comma hnc]
    simp [hne, idxFrom, idxTo]

theorem NameListIter.collect_join {names : List Bytes} (h : ∀ n ∈ names, Spec.Name n) :
    ∀ fuel, (Spec.joinComma names).length < fuel →
      NameListIter.collect fuel (Spec.joinComma names) = ok names := by
  induction names with
  | nil =>
    intro fuel hf
    cases fuel with
    | zero => simp at hf
    | succ f => simp [NameListIter.collect, Spec.joinComma, NameListIter.next]
  | cons n ns ih =>
    intro fuel hf
    cases fuel with
    | zero => simp at hf
    | succ f =>
      have hn := h n (by simp)
      have hl : 0 < n.length := List.length_pos_iff.mpr hn.1
      rw [NameListIter.collect, NameListIter.next_join hn]
      simp only [ok_bind]
      rw [ih (fun m hm => h m (by simp [hm])) f]
      · rfl
      · by_cases hs : ns = []
        · subst hs; simp [Spec.joinComma] at hf ⊢; omega
        · rw [joinComma_cons hs] at hf
          simp at hf; omega

theorem NameList.iter_eq {names : List Bytes} {l : NameList} (h : Spec.NameListOf names l.str) :
    l.iter = ok names := by
  obtain ⟨h1, h2⟩ := h
  unfold NameList.iter
  rw [h2]
  exact NameListIter.collect_join h1 _ (by omega)

/-- the names of a name-list are determined by it -/
theorem nameListOf_unique {n1 n2 : List Bytes} {s : Bytes} (h1 : Spec.NameListOf n1 s)
    (h2 : Spec.NameListOf n2 s) : n1 = n2 := by
  have a := NameList.iter_eq (l := ⟨s⟩) h1
  have b := NameList.iter_eq (l := ⟨s⟩) h2
  rw [a] at b
  exact R.ok.inj b

end Nora
