import Verif.Model.Arena
import Verif.Lemmas.Base
/-
C39: the channel table behaves as a finite map. The specification is a function from ids to what is
stored under them.
-/
namespace Nora
open R

namespace Spec

/-- a table: what is stored under an id -/
abbrev Table (α : Type) := UInt32 → Option α

/-- the table with one entry changed -/
def Table.update {α : Type} (t : Table α) (i : UInt32) (v : Option α) : Table α :=
  fun j => if j = i then v else t j

/-- operations on a table -/
inductive TableOp (α : Type) where
  | insert (v : α)
  | remove (i : UInt32)
  | get (i : UInt32)
  /-- overwrite an entry that exists -/
  | put (i : UInt32) (v : α)

/-- what an operation returns: an id, or an entry -/
inductive TableAns (α : Type) where
  | id (i : UInt32)
  | entry (v : Option α)

/-- What operations may answer: an insertion picks any unused id. -/
inductive TableRun {α : Type} : Table α → List (TableOp α) → List (TableAns α) → Table α → Prop
  | nil {t} : TableRun t [] [] t
  | insert {t v i os as t'} : t i = none → TableRun (t.update i (some v)) os as t' →
    TableRun t (.insert v :: os) (.id i :: as) t'
  | remove {t i os as t'} : TableRun (t.update i none) os as t' →
    TableRun t (.remove i :: os) (.entry (t i) :: as) t'
  | get {t i os as t'} : TableRun t os as t' → TableRun t (.get i :: os) (.entry (t i) :: as) t'
  | put {t i v os as t'} :
    TableRun (if t i = none then t else t.update i (some v)) os as t' →
    TableRun t (.put i v :: os) (.entry (t i) :: as) t'

end Spec

namespace Arena
variable {ε α : Type}

/-- an operation on the arena -/
def op (a : Arena α) : Spec.TableOp α → R ε (Spec.TableAns α × Arena α)
  | .insert v => do
    let (i, a) ← a.insert v
    .ok (.id i, a)
  | .remove i => .ok (.entry (a.remove i).1, (a.remove i).2)
  | .get i => .ok (.entry (a.get i), a)
  | .put i v => .ok (.entry (a.get i), a.put i v)

/-- operations one after the other -/
def ops (a : Arena α) : List (Spec.TableOp α) → R ε (List (Spec.TableAns α) × Arena α)
  | [] => .ok ([], a)
  | o :: os => do
    let (x, a) ← a.op o
    let (xs, a) ← ops a os
    .ok (x :: xs, a)

theorem get_eq (a : Arena α) (i : UInt32) : a.get i = (a[i.toNat]?).join := by
  unfold get; split <;> simp_all

theorem get_set (a : Arena α) (i j : UInt32) (v : Option α) (hi : i.toNat < a.length) :
    Arena.get (a.set i.toNat v) j = if j = i then v else a.get j := by
  rw [get_eq, get_eq, List.getElem?_set]
  by_cases h : j = i
  · subst h; simp [hi]
  · have : i.toNat ≠ j.toNat := fun e => h (UInt32.toNat_inj.mp e.symm)
    simp [h, this]

end Arena

/-- C39: a successful insertion returns an id that was not in use, stores the value under it and
changes nothing else -/
theorem C39_insert {ε α : Type} (a a' : Arena α) (v : α) (i : UInt32)
    (h : (a.insert v : R ε _) = ok (i, a')) :
    a.get i = none ∧ a'.get i = some v ∧ ∀ j, j ≠ i → a'.get j = a.get j := by
  unfold Arena.insert at h
  cases hf : a.findIdx? (fun v => v.isNone) with
  | some k =>
    simp only [hf, u32TryFrom] at h
    obtain ⟨hk, hk1, _⟩ := List.findIdx?_eq_some_iff_getElem.mp hf
    split at h
    · rename_i hlt
      simp only [ok_bind, R.ok.injEq, Prod.mk.injEq] at h
      obtain ⟨rfl, rfl⟩ := h
      have hn : (UInt32.ofNat k).toNat = k := UInt32.toNat_ofNat_of_lt' hlt
      have key := Arena.get_set a (UInt32.ofNat k)
      rw [hn] at key
      refine ⟨?_, by rw [key _ _ hk, if_pos rfl], fun j hj => by rw [key _ _ hk, if_neg hj]⟩
      rw [Arena.get_eq, hn, List.getElem?_eq_getElem hk]
      simpa using hk1
    · cases h
  | none =>
    simp only [hf, u32TryFrom] at h
    split at h
    · rename_i hlt
      simp only [ok_bind, R.ok.injEq, Prod.mk.injEq] at h
      obtain ⟨rfl, rfl⟩ := h
      have hn : (UInt32.ofNat a.length).toNat = a.length := UInt32.toNat_ofNat_of_lt' hlt
      refine ⟨?_, ?_, fun j hj => ?_⟩
      · rw [Arena.get_eq, hn]; simp
      · rw [Arena.get_eq, hn]; simp
      · have : j.toNat ≠ a.length := fun e => hj (by rw [← e]; simp)
        rw [Arena.get_eq, Arena.get_eq]
        by_cases hl : j.toNat < a.length
        · rw [List.getElem?_append_left hl]
        · rw [List.getElem?_eq_none (by simp; omega), List.getElem?_eq_none (by omega)]
    · cases h

/-- C39: an insertion fails (with a panic) only if all 2^32 ids are in use -/
theorem C39_insert_full {ε α : Type} (a : Arena α) (v : α) :
    (∃ i a', (a.insert v : R ε _) = ok (i, a')) ∨
    ((a.insert v : R ε _) = R.panic ∧ ∀ i, a.get i ≠ none) := by
  unfold Arena.insert
  cases hf : a.findIdx? (fun v => v.isNone) with
  | some k =>
    simp only [u32TryFrom]
    obtain ⟨hk, hk1, hk2⟩ := List.findIdx?_eq_some_iff_getElem.mp hf
    split
    · exact .inl ⟨_, _, rfl⟩
    · rename_i hlt
      refine .inr ⟨rfl, fun i => ?_⟩
      have := i.toNat_lt
      rw [Arena.get_eq, List.getElem?_eq_getElem (by omega)]
      have := hk2 i.toNat (by omega)
      simpa using this
  | none =>
    simp only [u32TryFrom]
    split
    · exact .inl ⟨_, _, rfl⟩
    · rename_i hlt
      refine .inr ⟨rfl, fun i => ?_⟩
      have := i.toNat_lt
      rw [Arena.get_eq, List.getElem?_eq_getElem (by omega)]
      have := List.findIdx?_eq_none_iff.mp hf _ (List.getElem_mem (l := a) (n := i.toNat) (by omega))
      rw [Option.join_some]
      intro e
      rw [e] at this
      cases this

/-- C39: an insertion takes the least unused id, so ids of removed entries are used again -/
theorem C39_reuse {ε α : Type} (a a' : Arena α) (v : α) (i j : UInt32)
    (h : (a.insert v : R ε _) = ok (i, a')) (hj : a.get j = none) : i.toNat ≤ j.toNat := by
  unfold Arena.insert at h
  cases hf : a.findIdx? (fun v => v.isNone) with
  | some k =>
    simp only [hf, u32TryFrom] at h
    obtain ⟨hk, hk1, hk2⟩ := List.findIdx?_eq_some_iff_getElem.mp hf
    split at h
    · rename_i hlt
      simp only [ok_bind, R.ok.injEq, Prod.mk.injEq] at h
      obtain ⟨rfl, rfl⟩ := h
      rw [UInt32.toNat_ofNat_of_lt' hlt]
      refine Classical.byContradiction fun hc => ?_
      have := hk2 j.toNat (by omega)
      rw [Arena.get_eq, List.getElem?_eq_getElem (by omega)] at hj
      simp only [Option.join_some] at hj
      simp [hj] at this
    · cases h
  | none =>
    simp only [hf, u32TryFrom] at h
    split at h
    · rename_i hlt
      simp only [ok_bind, R.ok.injEq, Prod.mk.injEq] at h
      obtain ⟨rfl, rfl⟩ := h
      rw [UInt32.toNat_ofNat_of_lt' hlt]
      refine Classical.byContradiction fun hc => ?_
      have := List.findIdx?_eq_none_iff.mp hf _ (List.getElem_mem (l := a) (n := j.toNat) (by omega))
      rw [Arena.get_eq, List.getElem?_eq_getElem (by omega)] at hj
      simp only [Option.join_some] at hj
      simp [hj] at this
    · cases h

/-- C39: removing an id returns what was stored under it, leaves it unused and affects no other -/
theorem C39_remove {α : Type} (a : Arena α) (i : UInt32) :
    (a.remove i).1 = a.get i ∧ (a.remove i).2.get i = none ∧
    ∀ j, j ≠ i → (a.remove i).2.get j = a.get j := by
  unfold Arena.remove
  split
  · rename_i v hv
    have hi : i.toNat < a.length := (List.getElem?_eq_some_iff.mp hv).1
    refine ⟨by simp [Arena.get_eq, hv], ?_, fun j hj => ?_⟩
    · simp only; rw [Arena.get_set a i i none hi, if_pos rfl]
    · simp only; rw [Arena.get_set a i j none hi, if_neg hj]
  · rename_i hv
    exact ⟨by simp [Arena.get_eq, hv], by simp [Arena.get_eq, hv], fun _ _ => rfl⟩

/-- C39: writing through `get_mut` changes the entry if it exists, and nothing else -/
theorem C39_put {α : Type} (a : Arena α) (i : UInt32) (v : α) (j : UInt32) :
    (a.put i v).get j = if j = i ∧ a.get i ≠ none then some v else a.get j := by
  unfold Arena.put
  split
  · rename_i w hw
    have hi : i.toNat < a.length := (List.getElem?_eq_some_iff.mp hw).1
    rw [Arena.get_set a i j _ hi]
    have : a.get i ≠ none := by simp [Arena.get_eq, hw]
    simp [this]
  · rename_i hw
    have : a.get i = none := by
      rw [Arena.get_eq]
      cases hv : a[i.toNat]? with
      | none => rfl
      | some x =>
        cases x with
        | none => rfl
        | some y => exact absurd hv (hw y)
    simp [this]

/-- C39: a new table is empty -/
theorem C39_new {α : Type} (i : UInt32) : (Arena.new : Arena α).get i = none := by
  simp [Arena.new, Arena.get]

/-- C39: any history of operations, starting from any arena, answers as a finite map with fresh ids
would -/
theorem C39_history {ε α : Type} (os : List (Spec.TableOp α)) : ∀ (a a' : Arena α) as,
    (a.ops os : R ε _) = ok (as, a') → Spec.TableRun a.get os as a'.get := by
  induction os with
  | nil =>
    intro a a' as h
    cases h
    exact .nil
  | cons o os ih =>
    intro a a' as h
    rw [Arena.ops] at h
    obtain ⟨⟨x, a1⟩, h1, h⟩ := bind_eq_ok.mp h
    obtain ⟨⟨xs, a2⟩, h2, h⟩ := bind_eq_ok.mp h
    simp only [R.ok.injEq, Prod.mk.injEq] at h
    obtain ⟨rfl, rfl⟩ := h
    have hr := ih _ _ _ h2
    cases o with
    | insert v =>
      obtain ⟨⟨i, a3⟩, h3, h1⟩ := bind_eq_ok.mp h1
      simp only [R.ok.injEq, Prod.mk.injEq] at h1
      obtain ⟨rfl, rfl⟩ := h1
      obtain ⟨e1, e2, e3⟩ := C39_insert _ _ _ _ h3
      refine .insert e1 ?_
      have : a3.get = Spec.Table.update a.get i (some v) := by
        funext j
        unfold Spec.Table.update
        split
        · rename_i hj; rw [hj, e2]
        · rename_i hj; exact e3 j hj
      rwa [← this]
    | remove i =>
      simp only [Arena.op, R.ok.injEq, Prod.mk.injEq] at h1
      obtain ⟨rfl, rfl⟩ := h1
      obtain ⟨e1, e2, e3⟩ := C39_remove a i
      rw [e1]
      refine .remove ?_
      have : (a.remove i).2.get = Spec.Table.update a.get i none := by
        funext j
        unfold Spec.Table.update
        split
        · rename_i hj; rw [hj, e2]
        · rename_i hj; exact e3 j hj
      rwa [← this]
    | get i =>
      simp only [Arena.op, R.ok.injEq, Prod.mk.injEq] at h1
      obtain ⟨rfl, rfl⟩ := h1
      exact .get hr
    | put i v =>
      simp only [Arena.op, R.ok.injEq, Prod.mk.injEq] at h1
      obtain ⟨rfl, rfl⟩ := h1
      refine .put ?_
      have : (a.put i v).get = if a.get i = none then a.get else
          Spec.Table.update a.get i (some v) := by
        funext j
        rw [C39_put]
        by_cases hi : a.get i = none
        · simp [hi]
        · simp only [hi, if_false, Spec.Table.update, ne_eq, not_false_eq_true, and_true]
      rwa [← this]

example : ∃ a', ((Arena.new : Arena Nat).ops
    [.insert 7, .insert 8, .remove 0, .get 0, .insert 9, .put 1 5, .get 1] : R Unit _) =
    ok ([.id 0, .id 1, .entry (some 7), .entry none, .id 0, .entry (some 8), .entry (some 5)], a') :=
  ⟨_, rfl⟩

end Nora
