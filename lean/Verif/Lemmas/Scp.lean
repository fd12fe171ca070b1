import Verif.Spec.Scp
import Verif.Lemmas.Text
/-
Lemmas about the model of `scp`.
-/
namespace Nora
open R Scp Spec

namespace Scp

/-! ### computations -/

namespace S
variable {α β : Type}

@[simp] theorem pure_run (a : α) (s : St) : (pure a : S α) s = (ok a, s) := rfl
@[simp] theorem lift_run (x : R Err α) (s : St) : S.lift x s = (x, s) := rfl

theorem bind_run (x : S α) (f : α → S β) (s : St) :
    (x >>= f) s = match x s with
      | (.ok a, s') => f a s'
      | (.err e, s') => (.err e, s')
      | (.panic, s') => (.panic, s') := rfl

theorem bind_ok {x : S α} {f : α → S β} {s s' : St} {a : α} (h : x s = (ok a, s')) :
    (x >>= f) s = f a s' := by rw [bind_run, h]

theorem bind_err {x : S α} {f : α → S β} {s s' : St} {e : Err} (h : x s = (err e, s')) :
    (x >>= f) s = (err e, s') := by rw [bind_run, h]

theorem bind_panic {x : S α} {f : α → S β} {s s' : St} (h : x s = (R.panic, s')) :
    (x >>= f) s = (R.panic, s') := by rw [bind_run, h]

theorem bind_assoc {γ : Type} (x : S α) (f : α → S β) (g : β → S γ) :
    (x >>= f) >>= g = x >>= fun a => f a >>= g := by
  funext s
  rw [bind_run, bind_run, bind_run]
  rcases x s with ⟨a | e | -, s'⟩ <;> rfl

end S

/-! ### lines, fields, numbers -/

theorem line_spec (inp : Bytes) :
    ∃ rest, inp = S.line inp ++ rest ∧ Line (S.line inp) rest := by
  induction inp with
  | nil => exact ⟨[], rfl, by simp [S.line, Line]⟩
  | cons b t ih =>
    rw [S.line]
    split
    · rename_i hb
      exact ⟨t, rfl, by simp [Line, hb]⟩
    · rename_i hb
      obtain ⟨rest, h1, h2, h3⟩ := ih
      refine ⟨rest, by rw [List.cons_append, ← h1], ?_, ?_⟩
      · rcases hl : S.line t with _ | ⟨c, l⟩
        · simp
        · rw [hl] at h2
          rw [List.dropLast_cons_cons, List.mem_cons]
          rintro (h | h)
          · exact hb h.symm
          · exact h2 h
      · rcases h3 with h3 | h3
        · left
          rcases hl : S.line t with _ | ⟨c, l⟩
          · rw [hl] at h3; cases h3
          · rw [hl] at h3
            rw [List.getLast?_cons_cons]; exact h3
        · exact .inr h3

theorem line_drop (inp : Bytes) :
    inp = S.line inp ++ inp.drop (S.line inp).length ∧
      Line (S.line inp) (inp.drop (S.line inp).length) := by
  obtain ⟨rest, h1, h2⟩ := line_spec inp
  have : inp.drop (S.line inp).length = rest := by
    generalize S.line inp = l at h1
    rw [h1]; simp
  rw [this]; exact ⟨h1, h2⟩

/-- the first line is unique -/
theorem line_unique {l rest : Bytes} (h : Line l rest) : S.line (l ++ rest) = l := by
  induction l with
  | nil =>
    obtain ⟨-, h | h⟩ := h
    · cases h
    · rw [h]; rfl
  | cons b t ih =>
    obtain ⟨h1, h2⟩ := h
    rw [List.cons_append, S.line]
    split
    · rename_i hb
      rcases t with _ | ⟨c, t⟩
      · rfl
      · rw [List.dropLast_cons_cons] at h1
        exact absurd (by rw [hb]; exact List.mem_cons_self ..) h1
    · rename_i hb
      rw [ih]
      rcases t with _ | ⟨c, t⟩
      · refine ⟨by simp, ?_⟩
        rcases h2 with h2 | h2
        · exact absurd (by simpa using h2) hb
        · exact .inr h2
      · rw [List.dropLast_cons_cons] at h1
        rw [List.getLast?_cons_cons] at h2
        exact ⟨fun h => h1 (List.mem_cons_of_mem _ h), h2⟩

theorem split_spec (s : Bytes) :
    s = (split s).1 ++ ((split s).2.map (fun p => 32 :: p)).flatten ∧ (32 : Byte) ∉ (split s).1 ∧
      ∀ p ∈ (split s).2, (32 : Byte) ∉ p := by
  induction s with
  | nil => simp [split]
  | cons b t ih =>
    obtain ⟨h1, h2, h3⟩ := ih
    rw [split]
    split
    · rename_i hb
      refine ⟨?_, by simp, ?_⟩
      · simp only [List.nil_append, List.map_cons, List.flatten_cons, List.cons_append, hb]
        rw [← h1]
      · intro p hp
        rw [List.mem_cons] at hp
        rcases hp with rfl | hp
        · exact h2
        · exact h3 p hp
    · rename_i hb
      refine ⟨?_, ?_, h3⟩
      · simp only [List.cons_append]; rw [← h1]
      · simp only [List.mem_cons]
        rintro (h | h)
        · exact hb h.symm
        · exact h2 h

/-- the fields after the first one -/
def tailFields : Bytes → List Bytes
  | [] => []
  | _ :: t => (split t).1 :: (split t).2

theorem split_first {a rest : Bytes} (h : (32 : Byte) ∉ a) (hr : rest = [] ∨ rest.head? = some 32) :
    (split (a ++ rest)).1 = a ∧ (split (a ++ rest)).2 = tailFields rest := by
  induction a with
  | nil =>
    rcases rest with _ | ⟨b, t⟩
    · exact ⟨rfl, rfl⟩
    · have : b = 32 := by simpa using hr
      rw [List.nil_append, split, if_pos this]
      exact ⟨rfl, rfl⟩
  | cons b t ih =>
    have hb : b ≠ 32 := by rintro rfl; exact h (List.mem_cons_self ..)
    have := ih (fun h' => h (List.mem_cons_of_mem _ h'))
    rw [List.cons_append, split, if_neg hb, this.1]
    exact ⟨rfl, this.2⟩

theorem digit_iff {b : Byte} : (48 ≤ b && b ≤ 57) = true ↔ 48 ≤ b.toNat ∧ b.toNat ≤ 57 := by
  simp [UInt8.le_iff_toNat_le]

theorem foldl_le (ds : Bytes) (a : Nat) :
    a ≤ ds.foldl (fun a d => 10 * a + (d.toNat - 48)) a := by
  induction ds generalizing a with
  | nil => exact Nat.le_refl _
  | cons d t ih =>
    have : a ≤ 10 * a + (d.toNat - 48) := by omega
    exact Nat.le_trans this (ih _)

theorem digits_eq_ok {acc n : Nat} {ds : Bytes} (ha : acc < 2 ^ 64) :
    digits acc ds = ok n ↔ (∀ d ∈ ds, 48 ≤ d.toNat ∧ d.toNat ≤ 57) ∧
      n = ds.foldl (fun a d => 10 * a + (d.toNat - 48)) acc ∧ n < 2 ^ 64 := by
  induction ds generalizing acc with
  | nil =>
    simp only [digits, ok.injEq, List.not_mem_nil, false_implies, implies_true, List.foldl_nil,
      true_and]
    constructor
    · rintro rfl; exact ⟨rfl, ha⟩
    · rintro ⟨rfl, -⟩; rfl
  | cons d t ih =>
    rw [digits]
    by_cases hd : (48 ≤ d && d ≤ 57) = true
    · rw [if_pos hd]
      have hd' := digit_iff.mp hd
      have hcomm : acc * 10 = 10 * acc := Nat.mul_comm ..
      by_cases h2 : acc * 10 + (d.toNat - 48) < 2 ^ 64
      · rw [if_pos (by omega), if_pos h2, ih h2, List.foldl_cons, hcomm]
        simp only [List.mem_cons, forall_eq_or_imp, hd', true_and, and_self]
      · have hno : ¬ (List.foldl (fun a d => 10 * a + (d.toNat - 48))
            (10 * acc + (d.toNat - 48)) t < 2 ^ 64) := by
          have := foldl_le t (10 * acc + (d.toNat - 48))
          omega
        have hl : (if acc * 10 < 2 ^ 64 then
            if acc * 10 + (d.toNat - 48) < 2 ^ 64 then digits (acc * 10 + (d.toNat - 48)) t
            else (R.err () : R Unit Nat) else .err ()) = .err () := by
          rw [if_neg h2]; split <;> rfl
        rw [hl, List.foldl_cons]
        constructor
        · intro h; cases h
        · rintro ⟨-, rfl, h⟩; exact absurd h hno
    · rw [if_neg hd]
      constructor
      · intro h; cases h
      · rintro ⟨h, -⟩
        exact absurd (digit_iff.mpr (h d (List.mem_cons_self ..))) hd

theorem digits_ne_panic {acc : Nat} {ds : Bytes} : digits acc ds ≠ R.panic := by
  induction ds generalizing acc with
  | nil => intro h; cases h
  | cons d t ih =>
    rw [digits]
    split_ifs
    · exact ih
    all_goals intro h; cases h

theorem parseUsize_eq_ok {s : Bytes} {n : Nat} :
    parseUsize s = ok n ↔ n < 2 ^ 64 ∧ (Decimal s n ∨ ∃ t, s = 43 :: t ∧ Decimal t n) := by
  have hplain : ∀ s : Bytes, s ≠ [] → (digits 0 s = ok n ↔ n < 2 ^ 64 ∧ Decimal s n) := by
    intro s hs
    rw [digits_eq_ok (by decide)]
    unfold Decimal
    constructor
    · rintro ⟨a, b, c⟩; exact ⟨c, hs, a, b⟩
    · rintro ⟨c, -, a, b⟩; exact ⟨a, b, c⟩
  have hbad : ∀ (c : Byte) (t : Bytes) (n : Nat), ¬ (48 ≤ c.toNat ∧ c.toNat ≤ 57) →
      ¬ Decimal (c :: t) n := fun c t n hc h => hc (h.2.1 c (List.mem_cons_self ..))
  unfold parseUsize
  split
  · constructor
    · intro h; cases h
    · rintro ⟨-, h | ⟨t, h, -⟩⟩
      · exact absurd rfl h.1
      · cases h
  · constructor
    · intro h; cases h
    · rintro ⟨-, h | ⟨t, h, h'⟩⟩
      · exact absurd h (hbad _ _ _ (by decide))
      · cases h; exact absurd rfl h'.1
  · constructor
    · intro h; cases h
    · rintro ⟨-, h | ⟨t, h, -⟩⟩
      · exact absurd h (hbad _ _ _ (by decide))
      · cases h
  · rename_i t h1
    have ht : t ≠ [] := by rintro rfl; exact h1 rfl
    rw [hplain t ht]
    constructor
    · rintro ⟨a, b⟩; exact ⟨a, .inr ⟨t, rfl, b⟩⟩
    · rintro ⟨a, b | ⟨u, hu, b⟩⟩
      · exact absurd b (hbad _ _ _ (by decide))
      · cases hu; exact ⟨a, b⟩
  · rename_i h1 h2 h3 h4
    rw [hplain s h1]
    constructor
    · rintro ⟨a, b⟩; exact ⟨a, .inl b⟩
    · rintro ⟨a, b | ⟨u, hu, b⟩⟩
      · exact ⟨a, b⟩
      · exact absurd hu (h4 u)

theorem parseUsize_ne_panic {s : Bytes} : parseUsize s ≠ R.panic := by
  unfold parseUsize
  split
  · intro h; cases h
  · intro h; cases h
  · intro h; cases h
  · exact digits_ne_panic
  · exact digits_ne_panic

/-! ### headers -/

/-- the fields of an accepted header -/
theorem accepted_split {hdr mode name : Bytes} {size : Nat} (h : HeaderLine hdr mode size name) :
    ∃ m ds file more, mode = 67 :: m ∧ split hdr = (mode, ds :: file :: more) ∧
      parseUsize ds = ok size ∧ (if file.getLast? = some 10 then file.dropLast else file) = name ∧
      Utf8 hdr := by
  obtain ⟨m, ds, file, more, hm, hh, h1, h2, h3, h4, h5, h6, h7, h8⟩ := h
  have e1 := split_first (a := mode) (rest := 32 :: ds ++ 32 :: file ++ more) h1 (.inr rfl)
  have e2 := split_first (a := ds) (rest := 32 :: file ++ more) h2 (.inr rfl)
  have e3 := split_first (a := file) (rest := more) h3 h4
  have hsp : split hdr = (mode, ds :: file :: tailFields more) := by
    have hs : hdr = mode ++ (32 :: ds ++ 32 :: file ++ more) := by rw [hh]; simp
    refine Prod.ext ?_ ?_
    · rw [hs, e1.1]
    · rw [hs, e1.2]
      have : split (ds ++ (32 :: file ++ more)) = (ds, (split (file ++ more)).1 ::
          (split (file ++ more)).2) := Prod.ext e2.1 e2.2
      show (split (ds ++ 32 :: file ++ more)).1 :: (split (ds ++ 32 :: file ++ more)).2 = _
      rw [show ds ++ 32 :: file ++ more = ds ++ (32 :: file ++ more) by simp, this]
      simp only
      rw [e3.1, e3.2]
  refine ⟨m, ds, file, _, hm, hsp, parseUsize_eq_ok.mpr ⟨h6, h5⟩, ?_, h8⟩
  rcases h7 with ⟨rfl, h7⟩ | rfl
  · rw [if_neg h7]
  · simp

/-- the other direction -/
theorem split_accepted {hdr mode ds file : Bytes} {more : List Bytes} {size : Nat} {m : Bytes}
    (hm : hdr = 67 :: m)
    (hs : split hdr = (mode, ds :: file :: more)) (hp : parseUsize ds = ok size) (hu : Utf8 hdr) :
    HeaderLine hdr mode size (if file.getLast? = some 10 then file.dropLast else file) := by
  obtain ⟨h1, h2, h3⟩ := split_spec hdr
  rw [hs] at h1 h2 h3
  obtain ⟨h6, h5⟩ := parseUsize_eq_ok.mp hp
  have hmode : ∃ m', mode = 67 :: m' := by
    rcases mode with _ | ⟨a, t⟩
    · rw [hm] at h1; simp at h1
    · rw [hm] at h1; simp at h1; exact ⟨t, by rw [← h1.1]⟩
  obtain ⟨m', hm'⟩ := hmode
  refine ⟨m', ds, file, (more.map (fun p => 32 :: p)).flatten, hm', ?_, h2, h3 ds (by simp),
    h3 file (by simp), ?_, h5, h6, ?_, hu⟩
  · rw [h1]; simp
  · rcases more with _ | ⟨p, ps⟩
    · exact .inl rfl
    · exact .inr rfl
  · split
    · rename_i hl
      right
      obtain ⟨q, rfl⟩ := List.getLast?_eq_some_iff.mp hl
      simp
    · rename_i hl
      exact .inl ⟨rfl, hl⟩

/-- `read_header` on an empty input -/
theorem readHeader_nil (log : List Ev) : readHeader ⟨[], log⟩ = (ok none, ⟨[], log⟩) := rfl

/-- `read_header` on a line that begins with `C` -/
theorem readHeader_C (l rest : Bytes) (log : List Ev) (h : Line (67 :: l) rest) :
    readHeader ⟨67 :: l ++ rest, log⟩ =
      ((do
        let header ← (Utf8.fromUtf8 (67 :: l)).okOr .utf8
        match (split header).2 with
        | size :: file :: _ => do
          let size ← (parseUsize size).okOr .size
          .ok (some ((split header).1, size,
            if file.getLast? = some 10 then file.dropLast else file))
        | _ => .err .missing), ⟨rest, log ++ [.read [67], .read l]⟩) := by
  have hl : Line l rest := by
    obtain ⟨h1, h2⟩ := h
    rcases l with _ | ⟨c, t⟩
    · refine ⟨by simp, ?_⟩
      rcases h2 with h2 | h2
      · cases h2
      · exact .inr h2
    · rw [List.dropLast_cons_cons] at h1
      rw [List.getLast?_cons_cons] at h2
      exact ⟨fun h => h1 (List.mem_cons_of_mem _ h), h2⟩
  have hline := line_unique hl
  unfold readHeader
  have hb : S.readByte ⟨67 :: l ++ rest, log⟩ = (ok (some 67), ⟨l ++ rest, log ++ [.read [67]]⟩) := rfl
  rw [S.bind_ok hb]
  simp only [if_true]
  have hr : S.readLine ⟨l ++ rest, log ++ [.read [67]]⟩ =
      (ok l, ⟨rest, log ++ [.read [67], .read l]⟩) := by
    unfold S.readLine
    simp only [hline]
    simp
  rw [S.bind_ok hr]
  rw [S.bind_run, S.lift_run]
  rcases hu : (Utf8.fromUtf8 (67 :: l)).okOr Err.utf8 with header | e | -
  · simp only [R.ok_bind]
    rcases hs : split header with ⟨mode, _ | ⟨size, _ | ⟨file, more⟩⟩⟩
    · rfl
    · rfl
    · simp only
      rw [S.bind_run, S.lift_run]
      rcases (parseUsize size).okOr Err.size with n | e | - <;> rfl
  · rfl
  · rfl

/-- `read_header` succeeds exactly on accepted headers -/
theorem readHeader_iff {inp : Bytes} {log : List Ev} {mode name : Bytes} {size : Nat} {s' : St} :
    readHeader ⟨inp, log⟩ = (ok (some (mode, size, name)), s') ↔
      ∃ hdr, inp = hdr ++ s'.inp ∧ Line hdr s'.inp ∧ HeaderLine hdr mode size name ∧
        s'.log = log ++ [.read (hdr.take 1), .read (hdr.drop 1)] := by
  constructor
  · intro h
    rcases inp with _ | ⟨c, t⟩
    · cases h
    · by_cases hc : c = 67
      · subst hc
        obtain ⟨h1, h2⟩ := line_drop (67 :: t)
        have hl : S.line (67 :: t) = 67 :: S.line t := by rw [S.line]; rfl
        rw [hl] at h1 h2
        generalize (67 :: t).drop (67 :: S.line t).length = rest at h1 h2
        generalize S.line t = l at h1 h2
        rw [h1, readHeader_C l rest log h2] at h
        obtain ⟨h3, h4⟩ := Prod.mk.inj h
        rw [R.bind_eq_ok] at h3
        obtain ⟨header, hu, h3⟩ := h3
        rw [okOr_eq_ok, fromUtf8_eq_ok] at hu
        obtain ⟨hu, rfl⟩ := hu
        split at h3
        · rename_i sz file more hs
          rw [R.bind_eq_ok] at h3
          obtain ⟨n, hn, h3⟩ := h3
          rw [okOr_eq_ok] at hn
          cases h3
          subst h4
          refine ⟨67 :: l, h1, h2, ?_, by simp⟩
          exact split_accepted rfl (Prod.ext rfl hs) hn hu
        · cases h3
      · unfold readHeader at h
        have hb : S.readByte ⟨c :: t, log⟩ = (ok (some c), ⟨t, log ++ [.read [c]]⟩) := rfl
        rw [S.bind_ok hb] at h
        simp only [hc, if_false] at h
        split at h <;> cases h
  · rintro ⟨hdr, h1, h2, h3, h4⟩
    obtain ⟨m, ds, file, more, hm, hs, hp, hf, hu⟩ := accepted_split h3
    have hhdr : ∃ l, hdr = 67 :: l := by
      obtain ⟨m', ds', file', more', hm', hh', -⟩ := h3
      exact ⟨_, by rw [hh', hm']; rfl⟩
    obtain ⟨l, rfl⟩ := hhdr
    obtain ⟨rest, log'⟩ := s'
    simp only at h1 h2 h4
    rw [h1, readHeader_C l rest log h2]
    have hfu : Utf8.fromUtf8 (67 :: l) = ok (67 :: l) := fromUtf8_eq_ok.mpr ⟨hu, rfl⟩
    simp only [hfu, hs, hp, ok_okOr, R.ok_bind, hf]
    rw [h4]; rfl

/-- `read_header` reports the end only at the end -/
theorem readHeader_none {inp : Bytes} {log : List Ev} {s' : St}
    (h : readHeader ⟨inp, log⟩ = (ok none, s')) : inp = [] ∧ s' = ⟨[], log⟩ := by
  rcases inp with _ | ⟨c, t⟩
  · cases h; exact ⟨rfl, rfl⟩
  · exfalso
    by_cases hc : c = 67
    · subst hc
      obtain ⟨h1, h2⟩ := line_drop (67 :: t)
      have hl : S.line (67 :: t) = 67 :: S.line t := by rw [S.line]; rfl
      rw [hl] at h1 h2
      generalize (67 :: t).drop (67 :: S.line t).length = rest at h1 h2
      generalize S.line t = l at h1 h2
      rw [h1, readHeader_C l rest log h2] at h
      have h3 := (Prod.mk.inj h).1
      rw [R.bind_eq_ok] at h3
      obtain ⟨header, hu, h3⟩ := h3
      split at h3
      · rw [R.bind_eq_ok] at h3
        obtain ⟨n, hn, h3⟩ := h3
        cases h3
      · cases h3
    · unfold readHeader at h
      have hb : S.readByte ⟨c :: t, log⟩ = (ok (some c), ⟨t, log ++ [.read [c]]⟩) := rfl
      rw [S.bind_ok hb] at h
      simp only [hc, if_false] at h
      split at h <;> cases h

/-- whatever `read_header` returns, it only reads -/
theorem readHeader_log (inp : Bytes) (log : List Ev) :
    ∃ rs : List Bytes, (readHeader ⟨inp, log⟩).2.log = log ++ rs.map .read ∧
      inp = rs.flatten ++ (readHeader ⟨inp, log⟩).2.inp := by
  rcases inp with _ | ⟨c, t⟩
  · exact ⟨[], by simp [readHeader_nil], by simp [readHeader_nil]⟩
  · by_cases hc : c = 67
    · subst hc
      obtain ⟨h1, h2⟩ := line_drop (67 :: t)
      have hl : S.line (67 :: t) = 67 :: S.line t := by rw [S.line]; rfl
      rw [hl] at h1 h2
      generalize (67 :: t).drop (67 :: S.line t).length = rest at h1 h2
      generalize S.line t = l at h1 h2
      rw [h1, readHeader_C l rest log h2]
      exact ⟨[[67], l], by simp, by simp⟩
    · unfold readHeader
      have hb : S.readByte ⟨c :: t, log⟩ = (ok (some c), ⟨t, log ++ [.read [c]]⟩) := rfl
      rw [S.bind_ok hb]
      simp only [hc, if_false]
      refine ⟨[[c]], ?_⟩
      split <;> exact ⟨rfl, rfl⟩

/-! ### contents -/

theorem growLast_append (bs : Bytes) (fs : List (Bytes × Bytes)) (p c : Bytes) :
    growLast bs (fs ++ [(p, c)]) = fs ++ [(p, c ++ bs)] := by
  induction fs with
  | nil => rfl
  | cons f t ih =>
    rcases ht : t ++ [(p, c)] with _ | ⟨g, u⟩
    · simp at ht
    · rw [List.cons_append, ht, growLast, ← ht, ih, List.cons_append]
      simp

/-- events that read `n` bytes and write `data` to the last file, and nothing else -/
def Moves (evs : List Ev) (n : Nat) (data : Bytes) : Prop :=
  (∀ e ∈ evs, (∃ bs, e = .read bs) ∨ ∃ bs, e = .write bs) ∧
  ∀ pos acks fs p c, evs.foldl Scan.step ⟨pos, acks, fs ++ [(p, c)]⟩ =
    ⟨pos + n, acks, fs ++ [(p, c ++ data)]⟩

theorem Moves.nil : Moves [] 0 [] := ⟨by simp, by simp⟩

theorem Moves.append {e1 e2 : List Ev} {n1 n2 : Nat} {d1 d2 : Bytes} (h1 : Moves e1 n1 d1)
    (h2 : Moves e2 n2 d2) : Moves (e1 ++ e2) (n1 + n2) (d1 ++ d2) := by
  refine ⟨?_, ?_⟩
  · intro e he
    rcases List.mem_append.mp he with h | h
    · exact h1.1 e h
    · exact h2.1 e h
  · intro pos acks fs p c
    rw [List.foldl_append, h1.2, h2.2]
    simp [Nat.add_assoc]

theorem Moves.read (bs : Bytes) : Moves [.read bs] bs.length [] :=
  ⟨by simp, by simp [Scan.step]⟩

theorem Moves.write (bs : Bytes) : Moves [.write bs] 0 bs :=
  ⟨by simp, by simp [Scan.step, growLast_append]⟩

/-- the loop of `transfer_file` -/
theorem copy_run (os : Os) (size : Nat) (s : St) :
    ∃ evs n data, (copy os size s).2.log = s.log ++ evs ∧ Moves evs n data ∧
      data <+: s.inp.take size ∧ (copy os size s).1 ≠ .panic ∧
      ((copy os size s).1 = .ok () → size ≤ s.inp.length ∧ n = size ∧ data = s.inp.take size ∧
        (copy os size s).2.inp = s.inp.drop size) := by
  induction size using Nat.strongRecOn generalizing s with
  | _ size ih =>
    rw [copy]
    by_cases h0 : size = 0
    · rw [if_pos h0]
      exact ⟨[], 0, [], by simp, .nil, by simp, by simp, by simp [h0]⟩
    · rw [if_neg h0]
      have hl : min size (1 <<< 15) ≤ size := Nat.min_le_left ..
      have hl0 : 0 < min size (1 <<< 15) := by
        have : (1 <<< 15 : Nat) = 32768 := rfl
        omega
      generalize min size (1 <<< 15) = l at hl hl0
      by_cases hlen : l ≤ s.inp.length
      · have hr : S.readExact l s =
            (ok (s.inp.take l), ⟨s.inp.drop l, s.log ++ [.read (s.inp.take l)]⟩) := by
          unfold S.readExact; rw [if_pos hlen]
        rw [S.bind_ok hr]
        rw [S.bind_run]
        unfold S.write
        simp only
        by_cases hw : os.ok (s.log ++ [.read (s.inp.take l)]) (.write (s.inp.take l)) = true
        · rw [if_pos hw]
          simp only
          obtain ⟨evs, n, data, h1, h2, h3, h4, h5⟩ := ih (size - l) (by omega)
            ⟨s.inp.drop l, s.log ++ [.read (s.inp.take l)] ++ [.write (s.inp.take l)]⟩
          have htake : s.inp.take l ++ (s.inp.drop l).take (size - l) = s.inp.take size := by
            rw [← List.take_add, show l + (size - l) = size by omega]
          refine ⟨([.read (s.inp.take l)] ++ [.write (s.inp.take l)]) ++ evs,
            ((s.inp.take l).length + 0) + n, (([] : Bytes) ++ s.inp.take l) ++ data, ?_,
            ((Moves.read _).append (Moves.write _)).append h2, ?_, h4, ?_⟩
          · rw [h1]; simp
          · rw [← htake, List.nil_append]
            exact (List.prefix_append_right_inj _).mpr h3
          · intro hok
            obtain ⟨h6, h7, h8, h9⟩ := h5 hok
            simp only [List.length_drop] at h6
            refine ⟨by omega, ?_, ?_, ?_⟩
            · simp only [List.length_take]; omega
            · rw [h8, List.nil_append, htake]
            · rw [h9, List.drop_drop, show l + (size - l) = size by omega]
        · rw [if_neg hw]
          simp only
          refine ⟨[.read (s.inp.take l)] ++ [.write ((s.inp.take l).take
            (os.part (s.log ++ [.read (s.inp.take l)])))], _, _, by simp,
            (Moves.read _).append (Moves.write _), ?_, by simp, by simp⟩
          rw [List.nil_append]
          refine (List.take_prefix _ _).trans ?_
          refine ⟨(s.inp.drop l).take (size - l), ?_⟩
          rw [← List.take_add, show l + (size - l) = size by omega]
      · have hr : S.readExact l s = (err .io, ⟨[], s.log ++ [.read s.inp]⟩) := by
          unfold S.readExact; rw [if_neg hlen]
        rw [S.bind_err hr]
        exact ⟨[.read s.inp], _, [], rfl, .read _, by simp, by simp, by simp⟩

/-- `transfer_file` after a header: on success it has taken the content and a zero byte, and
acknowledges them. Otherwise it does not acknowledge, and has written a part of the content. -/
theorem transfer_run (os : Os) (size : Nat) (s : St) :
    (transferFile os size s).1 ≠ .panic ∧
    ((transferFile os size s).1 = .ok () →
      ∃ evs rest, s.inp = s.inp.take size ++ 0 :: rest ∧ size ≤ s.inp.length ∧
        (transferFile os size s).2 = ⟨rest, s.log ++ evs ++ [.ack]⟩ ∧
        Moves evs (size + 1) (s.inp.take size)) ∧
    ((transferFile os size s).1 ≠ .ok () →
      ∃ evs n data, (transferFile os size s).2.log = s.log ++ evs ∧ Moves evs n data ∧
        data <+: s.inp.take size) := by
  obtain ⟨evs, n, data, h1, h2, h3, h4, h5⟩ := copy_run os size s
  unfold transferFile
  rcases hc : copy os size s with ⟨a | e | -, s1⟩
  · obtain ⟨h6, h7, h8, h9⟩ := h5 (by rw [hc])
    rw [S.bind_ok hc]
    rw [hc] at h1 h9
    simp only at h1 h9
    rcases hi : s1.inp with _ | ⟨b, rest⟩
    · have hr : S.readExact 1 s1 = (err .io, ⟨[], s1.log ++ [.read []]⟩) := by
        unfold S.readExact; rw [if_neg (by rw [hi]; simp), hi]
      rw [S.bind_err hr]
      refine ⟨by simp, by simp, fun _ => ⟨evs ++ [.read []], n + 0, data ++ [], ?_,
        h2.append (.read []), by simpa using h3⟩⟩
      rw [h1]; simp
    · have hr : S.readExact 1 s1 = (ok [b], ⟨rest, s1.log ++ [.read [b]]⟩) := by
        unfold S.readExact; rw [if_pos (by rw [hi]; simp), hi]; rfl
      rw [S.bind_ok hr]
      have hm : Moves (evs ++ [.read [b]]) (size + 1) (s.inp.take size) := by
        have := h2.append (Moves.read [b])
        rw [h7, h8] at this
        simpa using this
      by_cases hb : b = 0
      · subst hb
        simp only [ne_eq, not_true_eq_false, if_false]
        unfold S.op
        split
        · refine ⟨by simp, fun _ => ⟨evs ++ [.read [0]], rest, ?_, h6, ?_, hm⟩, by simp⟩
          · rw [← hi, h9, List.take_append_drop]
          · simp only [h1, List.append_assoc]
        · refine ⟨by simp, by simp, fun _ => ⟨evs ++ [.read [0]], _, _, ?_, hm, List.prefix_refl _⟩⟩
          simp only [h1, List.append_assoc]
      · have : [b] ≠ [0] := by simpa using hb
        simp only [ne_eq, this, not_false_eq_true, if_true, S.lift_run]
        refine ⟨by simp, by simp, fun _ => ⟨evs ++ [.read [b]], _, _, ?_, hm, List.prefix_refl _⟩⟩
        simp only [h1, List.append_assoc]
  · rw [S.bind_err hc]
    rw [hc] at h1
    exact ⟨by simp, by simp, fun _ => ⟨evs, n, data, h1, h2, h3⟩⟩
  · rw [hc] at h4; exact absurd rfl h4

/-- `transfer_file` when nothing fails -/
theorem copy_works {os : Os} (hos : Works os) (size : Nat) (s : St) (h : size ≤ s.inp.length) :
    ∃ log, copy os size s = (ok (), ⟨s.inp.drop size, log⟩) := by
  induction size using Nat.strongRecOn generalizing s with
  | _ size ih =>
    rw [copy]
    by_cases h0 : size = 0
    · rw [if_pos h0]
      exact ⟨s.log, by simp [h0]⟩
    · rw [if_neg h0]
      have hl : min size (1 <<< 15) ≤ size := Nat.min_le_left ..
      have hl0 : 0 < min size (1 <<< 15) := by
        have : (1 <<< 15 : Nat) = 32768 := rfl
        omega
      generalize min size (1 <<< 15) = l at hl hl0
      have hr : S.readExact l s =
          (ok (s.inp.take l), ⟨s.inp.drop l, s.log ++ [.read (s.inp.take l)]⟩) := by
        unfold S.readExact; rw [if_pos (by omega)]
      rw [S.bind_ok hr]
      have hw : S.write os (s.inp.take l) ⟨s.inp.drop l, s.log ++ [.read (s.inp.take l)]⟩ =
          (ok (), ⟨s.inp.drop l, s.log ++ [.read (s.inp.take l)] ++ [.write (s.inp.take l)]⟩) := by
        unfold S.write; rw [if_pos (hos _ _)]
      rw [S.bind_ok hw]
      obtain ⟨log, hlog⟩ := ih (size - l) (by omega)
        ⟨s.inp.drop l, s.log ++ [.read (s.inp.take l)] ++ [.write (s.inp.take l)]⟩
        (by simp only [List.length_drop]; omega)
      rw [hlog]
      refine ⟨log, ?_⟩
      simp only [List.drop_drop]
      rw [show l + (size - l) = size by omega]

theorem op_works {os : Os} (hos : Works os) (e : Ev) (s : St) :
    S.op os e s = (ok (), { s with log := s.log ++ [e] }) := by
  unfold S.op; rw [if_pos (hos _ _)]

theorem transfer_works {os : Os} (hos : Works os) (content rest : Bytes) (log : List Ev) :
    ∃ log', transferFile os content.length ⟨content ++ 0 :: rest, log⟩ = (ok (), ⟨rest, log'⟩) := by
  obtain ⟨log1, h1⟩ := copy_works hos content.length ⟨content ++ 0 :: rest, log⟩ (by simp)
  unfold transferFile
  rw [S.bind_ok h1]
  simp only [List.drop_left]
  have hr : S.readExact 1 ⟨0 :: rest, log1⟩ = (ok [0], ⟨rest, log1 ++ [.read [0]]⟩) := by
    unfold S.readExact; rw [if_pos (by simp)]; rfl
  rw [S.bind_ok hr]
  simp only [ne_eq, not_true_eq_false, if_false]
  exact ⟨_, op_works hos _ _⟩

end Scp

end Nora
