import Verif.Model.Sync
import Verif.Lemmas.Base
/-
C52, C53: the mutex of the write half.

The specification looks at what happened only: which polls were ready, which guards were dropped, and
which wakers were woken.
-/
namespace Nora
open Sync

namespace Spec

/-- how many guards there have been -/
def gained (h : List Ev) : Nat :=
  h.countP (fun e => match e with | .poll _ _ true => true | _ => false)

/-- how many guards have been dropped -/
def dropped (h : List Ev) : Nat :=
  h.countP (fun e => match e with | .unlock _ _ => true | _ => false)

/-- no guard exists -/
def Free (h : List Ev) : Prop := gained h = dropped h

/-- how an event changes what is known of the `i`-th future: the waker of its last poll, if that was
pending and it is still there, and whether it was woken since -/
def waitStep (i : Nat) (a : Option (Waker × Bool)) : Ev → Option (Waker × Bool)
  | .lock => a
  | .poll j w ready => if j = i then (if ready then none else some (w, false)) else a
  | .cancel j => if j = i then none else a
  | .unlock _ none => a
  | .unlock _ (some w) => a.map (fun (v, woken) => (v, woken || v == w))

/-- what is known of the `i`-th future -/
def wait (h : List Ev) (i : Nat) : Option (Waker × Bool) := h.foldl (waitStep i) none

/-- the `i`-th future waits for the lock -/
def Waiting (h : List Ev) (i : Nat) : Prop := wait h i ≠ none

/-- the `i`-th future waits, and its waker was woken since its last poll -/
def Woken (h : List Ev) (i : Nat) : Prop := ∃ w, wait h i = some (w, true)

/-- what can happen when a mutex is used -/
def History (h : List Ev) : Prop := ∃ ops s, World.new.run ops = some (h, s)

/-- Futures that wait are not dropped. -/
def NoCancel (h : List Ev) : Prop :=
  ∀ h1 i h2, h = h1 ++ .cancel i :: h2 → ¬ Waiting h1 i

/-- Each future has its own waker. -/
def OwnWakers (h : List Ev) : Prop :=
  ∀ i w r j v r', .poll i w r ∈ h → .poll j v r' ∈ h → (i = j ↔ w = v)

/-- Nobody takes the lock from those that wait: if the lock is free and some future waits, then only one
that was woken is polled. -/
def NoBarging (h : List Ev) : Prop :=
  ∀ h1 i w r h2, h = h1 ++ .poll i w r :: h2 → Free h1 → (∃ j, Waiting h1 j) → Woken h1 i

end Spec

open Spec

/-! ### runs -/

theorem Sync.run_append {s : World} {o1 o2 : List Op} {h : List Ev} {s' : World}
    (hr : s.run (o1 ++ o2) = some (h, s')) :
    ∃ h1 h2 s1, h = h1 ++ h2 ∧ s.run o1 = some (h1, s1) ∧ s1.run o2 = some (h2, s') := by
  induction o1 generalizing s h with
  | nil => exact ⟨[], h, s, rfl, rfl, hr⟩
  | cons o os ih =>
    rw [List.cons_append, World.run] at hr
    split at hr
    · rename_i e s1 hs
      split at hr
      · rename_i es s2 hr2
        cases hr
        obtain ⟨h1, h2, s3, he, hA, hB⟩ := ih hr2
        refine ⟨e :: h1, h2, s3, by rw [he]; rfl, ?_, hB⟩
        rw [World.run, hs]; simp only [hA]
      · cases hr
    · cases hr

/-- each event of a run comes from a step of a run before -/
theorem Sync.run_length {s : World} {o : List Op} {h : List Ev} {s' : World}
    (hr : s.run o = some (h, s')) : h.length = o.length := by
  induction o generalizing s h with
  | nil => cases hr; rfl
  | cons o os ih =>
    rw [World.run] at hr
    split at hr
    · split at hr
      · rename_i hr2
        cases hr
        simp [ih hr2]
      · cases hr
    · cases hr

/-- induction along a run -/
theorem Sync.run_induction {P : List Ev → World → Prop} (h0 : P [] World.new)
    (hs : ∀ h s o e s', P h s → s.step o = some (e, s') → P (h ++ [e]) s')
    {ops : List Op} {h : List Ev} {s : World} (hr : World.new.run ops = some (h, s)) : P h s := by
  have key : ∀ (ops : List Op) (s0 s : World) (h0 h : List Ev), P h0 s0 →
      s0.run ops = some (h, s) → P (h0 ++ h) s := by
    intro ops
    induction ops with
    | nil => intro s0 s h0 h hp hr; cases hr; simpa using hp
    | cons o os ih =>
      intro s0 s h0 h hp hr
      rw [World.run] at hr
      split at hr
      · rename_i e s1 hst
        split at hr
        · rename_i es s2 hr2
          cases hr
          have := ih s1 s (h0 ++ [e]) es (hs h0 s0 o e s1 hp hst) hr2
          simpa using this
        · cases hr
      · cases hr
  simpa using key ops World.new s [] h h0 hr

/-- a prefix of a history is a history -/
theorem Spec.History.prefix {h1 h2 : List Ev} (hh : History (h1 ++ h2)) : History h1 := by
  obtain ⟨ops, s, hr⟩ := hh
  have hl := run_length hr
  have hsplit : ops = ops.take h1.length ++ ops.drop h1.length := (List.take_append_drop _ _).symm
  rw [hsplit] at hr
  obtain ⟨a, b, s1, he, hA, -⟩ := run_append hr
  have ha := run_length hA
  have : a = h1 := by
    have h3 := List.append_inj he
    have hlen : h1.length = a.length := by
      rw [ha, List.length_take]
      simp at hl; omega
    exact ((h3 hlen).1).symm
  exact ⟨_, s1, this ▸ hA⟩

/-- the guards that exist, and the borrow flag -/
structure Sync.Excl (h : List Ev) (s : World) : Prop where
  le : s.guards.length ≤ 1
  count : gained h = dropped h + s.guards.length
  flag : s.mutex.borrowed = true ↔ s.guards ≠ []

theorem Spec.gained_snoc (h : List Ev) (e : Ev) : gained (h ++ [e]) = gained h + gained [e] := by
  simp [gained, List.countP_append]

theorem Spec.dropped_snoc (h : List Ev) (e : Ev) :
    dropped (h ++ [e]) = dropped h + dropped [e] := by
  simp [dropped, List.countP_append]

theorem Spec.wait_snoc (h : List Ev) (e : Ev) (i : Nat) :
    wait (h ++ [e]) i = waitStep i (wait h i) e := by
  simp [wait, List.foldl_append]

theorem Sync.excl_step {h : List Ev} {s : World} {o : Op} {e : Ev} {s' : World}
    (hI : Excl h s) (hs : s.step o = some (e, s')) : Excl (h ++ [e]) s' := by
  obtain ⟨hle, hc, hf⟩ := hI
  cases o with
  | lock =>
    cases hs
    exact ⟨hle, by rw [gained_snoc, dropped_snoc, hc]; simp [gained, dropped], hf⟩
  | poll i w =>
    simp only [World.step] at hs
    split at hs
    · rename_i f hfi
      simp only [LocalMutex.poll] at hs
      by_cases hb : s.mutex.borrowed
      · by_cases hr : f.registered
        · simp [hb, hr] at hs
          obtain ⟨rfl, rfl⟩ := hs
          exact ⟨hle, by rw [gained_snoc, dropped_snoc, hc]; simp [gained, dropped], hf⟩
        · simp [hb, hr] at hs
          obtain ⟨rfl, rfl⟩ := hs
          exact ⟨hle, by rw [gained_snoc, dropped_snoc, hc]; simp [gained, dropped],
            by simpa [LocalMutex.pushWaker] using hf⟩
      · simp [hb] at hs
        obtain ⟨rfl, rfl⟩ := hs
        have hg : s.guards = [] := by
          rcases hgs : s.guards with _ | ⟨a, t⟩
          · rfl
          · exact absurd (hf.mpr (by rw [hgs]; simp)) hb
        refine ⟨by simp [hg], ?_, by simp⟩
        rw [gained_snoc, dropped_snoc, hc, hg]
        simp [gained, dropped]
    · cases hs
  | cancel i =>
    simp only [World.step] at hs
    split at hs
    · cases hs
      exact ⟨hle, by rw [gained_snoc, dropped_snoc, hc]; simp [gained, dropped], hf⟩
    · cases hs
  | unlock i =>
    simp only [World.step] at hs
    split at hs
    · rename_i hi
      cases hs
      have hg : s.guards = [i] := by
        rcases hgs : s.guards with _ | ⟨a, _ | ⟨b, t⟩⟩
        · rw [hgs] at hi; cases hi
        · rw [hgs] at hi; simp at hi; rw [hi]
        · rw [hgs] at hle; simp at hle
      refine ⟨by simp [hg], ?_, by simp [hg, LocalMutex.dropGuard]⟩
      rw [gained_snoc, dropped_snoc, hc, hg]
      simp [gained, dropped]
    · cases hs

theorem Sync.excl {ops : List Op} {h : List Ev} {s : World}
    (hr : World.new.run ops = some (h, s)) : Excl h s :=
  run_induction ⟨by simp [World.new], by simp [gained, dropped, World.new],
    by simp [World.new, LocalMutex.new]⟩ (fun _ _ _ _ _ => excl_step) hr

/-- C52, first half: at any time at most one guard exists. -/
theorem C52_exclusion (h : List Ev) (hh : History h) :
    dropped h ≤ gained h ∧ gained h ≤ dropped h + 1 := by
  obtain ⟨ops, s, hr⟩ := hh
  have := excl hr
  have h1 := this.le
  have h2 := this.count
  omega

/-- C52, second half: a poll returns a guard if and only if none exists. -/
theorem C52_poll (h1 h2 : List Ev) (i w : Nat) (r : Bool)
    (hh : History (h1 ++ .poll i w r :: h2)) : r = true ↔ Free h1 := by
  have hh' : History (h1 ++ [.poll i w r]) := by
    refine Spec.History.prefix (h2 := h2) ?_
    simpa using hh
  obtain ⟨ops, s, hr⟩ := hh'
  have hl := run_length hr
  have hsplit : ops = ops.take h1.length ++ ops.drop h1.length := (List.take_append_drop _ _).symm
  rw [hsplit] at hr
  obtain ⟨a, b, s1, he, hA, hB⟩ := run_append hr
  have hlen : h1.length = a.length := by
    rw [run_length hA, List.length_take]
    simp at hl; omega
  obtain ⟨rfl, rfl⟩ := List.append_inj he hlen
  have hE := excl hA
  have hlb := run_length hB
  rcases hd : ops.drop h1.length with _ | ⟨o, os⟩
  · rw [hd] at hlb; cases hlb
  · rw [hd, World.run] at hB
    split at hB
    · rename_i e s2 hst
      split at hB
      · rename_i es s3 hr3
        cases hB
        have hfree : Free h1 ↔ s1.guards = [] := by
          unfold Free
          rw [hE.count]
          constructor
          · intro h
            exact List.length_eq_zero_iff.mp (by omega)
          · intro h
            simp [h]
        rw [hfree]
        have hflag := hE.flag
        cases o with
        | lock => cases hst
        | cancel => simp only [World.step] at hst; split at hst <;> cases hst
        | unlock => simp only [World.step] at hst; split at hst <;> cases hst
        | poll j v =>
          simp only [World.step] at hst
          split at hst
          · rename_i f hfi
            simp only [LocalMutex.poll] at hst
            by_cases hb : s1.mutex.borrowed
            · have : s1.guards ≠ [] := hflag.mp hb
              by_cases hr : f.registered
              · simp [hb, hr] at hst
                simp [← hst.1.2.2, this]
              · simp [hb, hr] at hst
                simp [← hst.1.2.2, this]
            · have : s1.guards = [] := by
                rcases hgs : s1.guards with _ | ⟨a, t⟩
                · rfl
                · exact absurd (hflag.mpr (by rw [hgs]; simp)) hb
              simp [hb] at hst
              simp [← hst.1.2.2, this]
          · cases hst
      · cases hB
    · cases hB

/-- three futures: the first has the lock, the others wait; the lock is released and the third, woken,
gets it -/
def syncDemo : List Op :=
  [.lock, .lock, .lock, .poll 0 10, .poll 1 11, .poll 2 12, .unlock 0, .poll 2 12, .unlock 2]

def syncDemoLog : List Ev :=
  [.lock, .lock, .lock, .poll 0 10 true, .poll 1 11 false, .poll 2 12 false, .unlock 0 (some 12),
   .poll 2 12 true, .unlock 2 (some 11)]

theorem Sync.history_of {ops : List Op} {h : List Ev}
    (hr : (World.new.run ops).map (·.1) = some h) : History h := by
  rcases hq : World.new.run ops with _ | ⟨h', s⟩
  · rw [hq] at hr; cases hr
  · rw [hq] at hr; cases hr
    exact ⟨ops, s, hq⟩

theorem syncDemo_run : History syncDemoLog :=
  history_of (ops := syncDemo) (by decide +kernel)

-- `C52_exclusion` and `C52_poll` for the example: the poll of the second future is pending, the last
-- poll of the third is ready
example : ¬ Free (syncDemoLog.take 4) ∧ Free (syncDemoLog.take 7) :=
  ⟨fun h => Bool.noConfusion ((C52_poll (syncDemoLog.take 4) (syncDemoLog.drop 5) 1 11 false
      syncDemo_run).mpr h),
    (C52_poll (syncDemoLog.take 7) (syncDemoLog.drop 8) 2 12 true syncDemo_run).mp rfl⟩

/-! ### wake-ups -/

/-- C53 as stated: whenever the lock is free and a future waits for it, some future that waits has been
woken and not yet polled. -/
def C53_statement : Prop :=
  ∀ h, History h → Free h → (∃ i, Waiting h i) → ∃ j, Woken h j

/-- A future that waits is dropped: the next release wakes it, and no other. -/
def C53_cancelled : List Ev :=
  [.lock, .lock, .lock, .poll 0 10 true, .poll 1 11 false, .poll 2 12 false, .cancel 2,
   .unlock 0 (some 12)]

/-- A future is woken, but another one gets the lock first. When the woken one is polled, it is not put
into the queue again (`registered` is still set), and nobody is woken by the next release. -/
def C53_overtaken : List Ev :=
  [.lock, .lock, .lock, .poll 0 10 true, .poll 1 11 false, .unlock 0 (some 11), .poll 2 12 true,
   .poll 1 11 false, .unlock 2 none]

theorem Spec.no_wait {h : List Ev} {n : Nat}
    (hh : ∀ e ∈ h, ∀ i w r, e = .poll i w r → i < n) (i : Nat) (hi : n ≤ i) : wait h i = none := by
  unfold wait
  have : ∀ (h : List Ev), (∀ e ∈ h, ∀ i w r, e = .poll i w r → i < n) →
      h.foldl (waitStep i) none = none := by
    intro h
    induction h with
    | nil => intro _; rfl
    | cons e t ih =>
      intro hh
      have he : waitStep i none e = none := by
        cases e with
        | lock => rfl
        | poll j w r =>
          have := hh _ (List.mem_cons_self ..) j w r rfl
          have hne : j ≠ i := by omega
          simp [waitStep, hne]
        | cancel j => simp [waitStep]
        | unlock j w => cases w <;> rfl
      rw [List.foldl_cons, he]
      exact ih (fun e h' => hh e (List.mem_cons_of_mem _ h'))
  exact this h hh

/-- C53 is false for dropped futures. -/
theorem C53_refuted_cancel : ¬ C53_statement := by
  intro h
  obtain ⟨j, w, hj⟩ := h C53_cancelled
    (history_of (ops := [.lock, .lock, .lock, .poll 0 10, .poll 1 11, .poll 2 12, .cancel 2,
      .unlock 0]) (by decide +kernel)) (by show gained _ = dropped _; decide +kernel)
    ⟨1, by show wait _ _ ≠ _; decide +kernel⟩
  by_cases hj3 : 3 ≤ j
  · rw [no_wait (n := 3) (by
      intro e he i w r hp
      simp only [C53_cancelled, List.mem_cons, List.not_mem_nil, or_false] at he
      rcases he with rfl | rfl | rfl | rfl | rfl | rfl | rfl | rfl <;> cases hp <;> decide) j hj3] at hj
    cases hj
  · have : j = 0 ∨ j = 1 ∨ j = 2 := by omega
    rcases this with rfl | rfl | rfl <;> cases hj

/-- C53 is false even if no future is ever dropped. -/
theorem C53_refuted : ¬ C53_statement ∧
    ¬ (∀ h, History h → NoCancel h → OwnWakers h → Free h → (∃ i, Waiting h i) → ∃ j, Woken h j) := by
  have key : ¬ ∃ j, Woken C53_overtaken j := by
    rintro ⟨j, w, hj⟩
    by_cases hj3 : 3 ≤ j
    · rw [no_wait (n := 3) (by
        intro e he i w r hp
        simp only [C53_overtaken, List.mem_cons, List.not_mem_nil, or_false] at he
        rcases he with rfl | rfl | rfl | rfl | rfl | rfl | rfl | rfl | rfl <;> cases hp <;> decide) j hj3] at hj
      cases hj
    · have : j = 0 ∨ j = 1 ∨ j = 2 := by omega
      rcases this with rfl | rfl | rfl <;> cases hj
  have hh : History C53_overtaken := history_of (ops := [.lock, .lock, .lock, .poll 0 10, .poll 1 11,
      .unlock 0, .poll 2 12, .poll 1 11, .unlock 2]) (by decide +kernel)
  have hf : Free C53_overtaken := by show gained _ = dropped _; decide +kernel
  have hw : ∃ i, Waiting C53_overtaken i := ⟨1, by show wait _ _ ≠ _; decide +kernel⟩
  refine ⟨fun h => key (h _ hh hf hw), fun h => key (h _ hh ?_ ?_ hf hw)⟩
  · intro h1 i h2 he
    have : Ev.cancel i ∈ C53_overtaken := by rw [he]; simp
    simp [C53_overtaken] at this
  · intro i w r j v r' h1 h2
    simp only [C53_overtaken, List.mem_cons, List.not_mem_nil, or_false, reduceCtorEq, false_or,
      Ev.poll.injEq] at h1 h2
    rcases h1 with ⟨rfl, rfl, -⟩ | ⟨rfl, rfl, -⟩ | ⟨rfl, rfl, -⟩ | ⟨rfl, rfl, -⟩ <;>
      rcases h2 with ⟨rfl, rfl, -⟩ | ⟨rfl, rfl, -⟩ | ⟨rfl, rfl, -⟩ | ⟨rfl, rfl, -⟩ <;> decide

/-- what is known along a run in which nobody is dropped or overtaken -/
structure Sync.Wake (h : List Ev) (s : World) : Prop where
  excl : Excl h s
  /-- futures that are gone, or not there yet, do not wait -/
  gone : ∀ i, (∀ f, s.futs[i]? ≠ some (some f)) → wait h i = none
  /-- futures that are there have registered if and only if they wait -/
  reg : ∀ i f, s.futs[i]? = some (some f) → (f.registered = true ↔ wait h i ≠ none)
  nodup : s.mutex.queue.Nodup
  queue : ∀ w, w ∈ s.mutex.queue ↔ ∃ i, wait h i = some (w, false)
  held : s.mutex.borrowed = true → ∀ i w, wait h i ≠ some (w, true)
  free : s.mutex.borrowed = false → (∃ i, wait h i ≠ none) → ∃ j w, wait h j = some (w, true)
  one : ∀ i w j v, wait h i = some (w, true) → wait h j = some (v, true) → i = j

/-- who waits was polled with this waker -/
theorem Spec.wait_polled {h : List Ev} {i : Nat} {w : Waker} {b : Bool}
    (hw : wait h i = some (w, b)) : .poll i w false ∈ h := by
  have key : ∀ (h : List Ev) (a : Option (Waker × Bool)) (b : Bool),
      h.foldl (waitStep i) a = some (w, b) → (∃ b', a = some (w, b')) ∨ .poll i w false ∈ h := by
    intro h
    induction h with
    | nil => intro a b ha; exact .inl ⟨b, ha⟩
    | cons e t ih =>
      intro a b ha
      rw [List.foldl_cons] at ha
      rcases ih _ _ ha with ⟨b', hb⟩ | hm
      · cases e with
        | lock => exact .inl ⟨b', hb⟩
        | poll j v r =>
          simp only [waitStep] at hb
          split at hb
          · rename_i hj
            split at hb
            · cases hb
            · rename_i hr
              cases hb
              simp only [Bool.not_eq_true] at hr
              subst hj hr
              exact .inr (by simp)
          · exact .inl ⟨b', hb⟩
        | cancel j =>
          simp only [waitStep] at hb
          split at hb
          · cases hb
          · exact .inl ⟨b', hb⟩
        | unlock j v =>
          cases v with
          | none => exact .inl ⟨b', hb⟩
          | some v =>
            simp only [waitStep, Option.map_eq_some_iff] at hb
            obtain ⟨⟨x, c⟩, hq, he⟩ := hb
            cases he
            exact .inl ⟨c, hq⟩
      · exact .inr (List.mem_cons_of_mem _ hm)
  rcases key h none b hw with ⟨_, h'⟩ | h'
  · cases h'
  · exact h'

theorem Sync.wake_step {h : List Ev} {s : World} {o : Op} {e : Ev} {s' : World}
    (hI : Wake h s) (hs : s.step o = some (e, s')) (hC : NoCancel (h ++ [e]))
    (hO : OwnWakers (h ++ [e])) (hB : NoBarging (h ++ [e])) : Wake (h ++ [e]) s' := by
  have hE := excl_step hI.excl hs
  obtain ⟨hX, hg, hr, hn, hq, hh, hf, h1⟩ := hI
  have hFree : Free h ↔ s.mutex.borrowed = false := by
    have h2 := hX.count
    have h3 := hX.flag
    unfold Free
    rw [h2]
    rcases hb : s.mutex.borrowed
    · have : s.guards = [] := by
        rcases hgs : s.guards with _ | ⟨a, t⟩
        · rfl
        · have := h3.mpr (by rw [hgs]; simp)
          rw [hb] at this; cases this
      simp [this]
    · have := h3.mp hb
      have := List.length_pos_iff.mpr this
      simp; omega
  cases o with
  | lock =>
    cases hs
    have hw : ∀ i, wait (h ++ [.lock]) i = wait h i := fun i => by rw [wait_snoc]; rfl
    refine ⟨hE, ?_, ?_, hn, ?_, ?_, ?_, ?_⟩
    · intro i hi
      rw [hw]
      refine hg i (fun f hf => hi f ?_)
      have := (List.getElem?_eq_some_iff.mp hf).1
      rw [List.getElem?_append_left this]; exact hf
    · intro i f hi
      rw [hw]
      rw [List.getElem?_append] at hi
      split at hi
      · exact hr i f hi
      · rename_i hlt
        have hnone : wait h i = none := hg i (fun f hf => hlt (List.getElem?_eq_some_iff.mp hf).1)
        have := List.mem_of_getElem? hi
        simp at this
        subst this
        simp [LocalMutex.lock, hnone]
    · intro w; simp only [hw]; exact hq w
    · intro hb i w; rw [hw]; exact hh hb i w
    · intro hb; simp only [hw]; exact hf hb
    · intro i w j v; rw [hw, hw]; exact h1 i w j v
  | cancel i =>
    simp only [World.step] at hs
    split at hs
    · rename_i f hfi
      cases hs
      have hnone : wait h i = none := by
        have := hC h i [] rfl
        unfold Waiting at this
        rcases hq : wait h i with _ | x
        · rfl
        · rw [hq] at this; simp at this
      have hw : ∀ j, wait (h ++ [.cancel i]) j = wait h j := by
        intro j
        rw [wait_snoc]
        simp only [waitStep]
        split
        · rename_i hj; rw [← hj, hnone]
        · rfl
      refine ⟨hE, ?_, ?_, hn, ?_, ?_, ?_, ?_⟩
      · intro j hj
        rw [hw]
        by_cases hij : i = j
        · rw [← hij]; exact hnone
        · refine hg j (fun f hf => hj f ?_)
          simp only [List.getElem?_set_ne hij]; exact hf
      · intro j f hj
        rw [hw]
        by_cases hij : i = j
        · subst hij
          simp [List.getElem?_set] at hj
        · simp only [List.getElem?_set_ne hij] at hj
          exact hr j f hj
      · intro w; simp only [hw]; exact hq w
      · intro hb i w; rw [hw]; exact hh hb i w
      · intro hb; simp only [hw]; exact hf hb
      · intro i w j v; rw [hw, hw]; exact h1 i w j v
    · cases hs
  | poll i w =>
    simp only [World.step] at hs
    split at hs
    · rename_i f hfi
      simp only [LocalMutex.poll] at hs
      by_cases hb : s.mutex.borrowed
      · by_cases hreg : f.registered
        · -- still waiting
          simp [hb, hreg] at hs
          obtain ⟨rfl, rfl⟩ := hs
          have hwi : wait h i = some (w, false) := by
            have := (hr i f hfi).mp hreg
            rcases hqi : wait h i with _ | ⟨v, b⟩
            · exact absurd hqi this
            · cases b
              · have h2 := wait_polled hqi
                have := (hO i v false i w false (by simp [h2]) (by simp)).mp rfl
                rw [this]
              · exact absurd hqi (hh hb i v)
          have hw : ∀ j, wait (h ++ [.poll i w false]) j = wait h j := by
            intro j
            rw [wait_snoc]
            simp only [waitStep]
            split
            · rename_i hj; rw [← hj, hwi]; rfl
            · rfl
          have hset : s.futs.set i (some f) = s.futs := by
            apply List.ext_getElem?
            intro j
            by_cases hij : i = j
            · subst hij
              rw [hfi]
              simp [(List.getElem?_eq_some_iff.mp hfi).1]
            · rw [List.getElem?_set_ne hij]
          refine ⟨hE, ?_, ?_, hn, ?_, ?_, ?_, ?_⟩
          · intro j; rw [hw]; simp only [hset]; exact hg j
          · intro j f; rw [hw]; simp only [hset]; exact hr j f
          · intro w; simp only [hw]; exact hq w
          · intro hb i w; rw [hw]; exact hh hb i w
          · intro hb; simp only [hw]; exact hf hb
          · intro i w j v; rw [hw, hw]; exact h1 i w j v
        · -- joins the queue
          simp [hb, hreg] at hs
          obtain ⟨rfl, rfl⟩ := hs
          have hwi : wait h i = none := by
            rcases hqi : wait h i with _ | x
            · rfl
            · exact absurd ((hr i f hfi).mpr (by rw [hqi]; simp)) hreg
          have hwne : ∀ j, j ≠ i → wait (h ++ [.poll i w false]) j = wait h j := by
            intro j hj
            rw [wait_snoc]
            simp only [waitStep]
            rw [if_neg (fun h => hj h.symm)]
          have hwi' : wait (h ++ [.poll i w false]) i = some (w, false) := by
            rw [wait_snoc]; simp [waitStep]
          have hwq : w ∉ s.mutex.queue := by
            intro hm
            obtain ⟨j, hj⟩ := (hq w).mp hm
            have h2 := wait_polled hj
            have := (hO j w false i w false (by simp [h2]) (by simp)).mpr rfl
            rw [this, hwi] at hj; cases hj
          have hlt := (List.getElem?_eq_some_iff.mp hfi).1
          refine ⟨hE, ?_, ?_, ?_, ?_, ?_, ?_, ?_⟩
          · intro j hj
            by_cases hij : j = i
            · subst hij
              exact absurd (by simp [hlt]) (hj { registered := true })
            · rw [hwne j hij]
              refine hg j (fun f hf => hj f ?_)
              simp only [List.getElem?_set_ne (fun h => hij h.symm)]; exact hf
          · intro j f' hj
            by_cases hij : j = i
            · subst hij
              simp [hlt] at hj
              subst hj
              simp [hwi']
            · simp only [List.getElem?_set_ne (fun h => hij h.symm)] at hj
              rw [hwne j hij]
              exact hr j f' hj
          · simp only [LocalMutex.pushWaker]
            rw [List.nodup_append]
            exact ⟨hn, by simp, fun a ha b hb hab => hwq (by simp at hb; rw [← hb, ← hab]; exact ha)⟩
          · intro v
            simp only [LocalMutex.pushWaker, List.mem_append, List.mem_singleton]
            constructor
            · rintro (hv | rfl)
              · obtain ⟨j, hj⟩ := (hq v).mp hv
                have hij : j ≠ i := by rintro rfl; rw [hwi] at hj; cases hj
                exact ⟨j, by rw [hwne j hij]; exact hj⟩
              · exact ⟨i, hwi'⟩
            · rintro ⟨j, hj⟩
              by_cases hij : j = i
              · subst hij; rw [hwi'] at hj; cases hj; exact .inr rfl
              · rw [hwne j hij] at hj; exact .inl ((hq v).mpr ⟨j, hj⟩)
          · intro _ j v
            by_cases hij : j = i
            · subst hij; rw [hwi']; simp
            · rw [hwne j hij]; exact hh hb j v
          · intro hb'
            simp [LocalMutex.pushWaker, hb] at hb'
          · intro j v k u hj hk
            have aux : ∀ j v, wait (h ++ [.poll i w false]) j ≠ some (v, true) := by
              intro j v
              by_cases hij : j = i
              · subst hij; rw [hwi']; simp
              · rw [hwne j hij]; exact hh hb j v
            exact absurd hj (aux j v)
      · -- gets the lock
        simp [hb] at hs
        obtain ⟨rfl, rfl⟩ := hs
        have hbf : s.mutex.borrowed = false := by simpa using hb
        have hwne : ∀ j, j ≠ i → wait (h ++ [.poll i w true]) j = wait h j := by
          intro j hj
          rw [wait_snoc]
          simp only [waitStep]
          rw [if_neg (fun h => hj h.symm)]
        have hwi' : wait (h ++ [.poll i w true]) i = none := by
          rw [wait_snoc]; simp [waitStep]
        have hno : wait h i = none ∨ ∃ v, wait h i = some (v, true) := by
          rcases hqi : wait h i with _ | x
          · exact .inl rfl
          · refine .inr ?_
            rw [← hqi]
            exact hB h i w true [] rfl (hFree.mpr hbf) ⟨i, by unfold Waiting; rw [hqi]; simp⟩
        have hnot : ∀ j v, wait (h ++ [.poll i w true]) j ≠ some (v, true) := by
          intro j v hj
          by_cases hij : j = i
          · subst hij; rw [hwi'] at hj; cases hj
          · rw [hwne j hij] at hj
            obtain ⟨u, hu⟩ := hB h i w true [] rfl (hFree.mpr hbf)
              ⟨j, by unfold Waiting; rw [hj]; simp⟩
            exact hij (h1 j v i u hj hu)
        refine ⟨hE, ?_, ?_, hn, ?_, fun _ => hnot, fun hb' => by simp at hb',
          fun j v k u hj _ => absurd hj (hnot j v)⟩
        · intro j hj
          by_cases hij : j = i
          · subst hij; exact hwi'
          · rw [hwne j hij]
            refine hg j (fun f hf => hj f ?_)
            simp only [List.getElem?_set_ne (fun h => hij h.symm)]; exact hf
        · intro j f' hj
          by_cases hij : j = i
          · subst hij; simp [List.getElem?_set] at hj
          · simp only [List.getElem?_set_ne (fun h => hij h.symm)] at hj
            rw [hwne j hij]
            exact hr j f' hj
        · intro v
          rw [hq v]
          constructor
          · rintro ⟨j, hj⟩
            have hij : j ≠ i := by
              rintro rfl
              rcases hno with h2 | ⟨u, h2⟩ <;> rw [h2] at hj <;> cases hj
            exact ⟨j, by rw [hwne j hij]; exact hj⟩
          · rintro ⟨j, hj⟩
            by_cases hij : j = i
            · subst hij; rw [hwi'] at hj; cases hj
            · rw [hwne j hij] at hj; exact ⟨j, hj⟩
    · cases hs
  | unlock i =>
    simp only [World.step] at hs
    split at hs
    · rename_i hi
      simp only [LocalMutex.dropGuard, LocalMutex.popWaker] at hs
      have hb : s.mutex.borrowed = true := hX.flag.mpr (by rintro h; rw [h] at hi; cases hi)
      rcases hlast : s.mutex.queue.getLast? with _ | w
      · rw [hlast] at hs
        cases hs
        have hqe : s.mutex.queue = [] := List.getLast?_eq_none_iff.mp hlast
        have hw : ∀ j, wait (h ++ [.unlock i none]) j = wait h j := fun j => by rw [wait_snoc]; rfl
        have hall : ∀ j, wait h j = none := by
          intro j
          rcases hqj : wait h j with _ | ⟨v, b⟩
          · rfl
          · cases b
            · have := (hq v).mpr ⟨j, hqj⟩
              rw [hqe] at this; cases this
            · exact absurd hqj (hh hb j v)
        refine ⟨hE, ?_, ?_, by simp [hqe], ?_, ?_, ?_, ?_⟩
        · intro j hj; rw [hw]; exact hall j
        · intro j f hj; rw [hw]; exact hr j f hj
        · intro v; simp only [hw]; rw [← hq v]; simp [hqe]
        · intro hb'; cases hb'
        · rintro - ⟨j, hj⟩; rw [hw] at hj; exact absurd (hall j) hj
        · intro j v k u hj; rw [hw, hall] at hj; cases hj
      · rw [hlast] at hs
        cases hs
        obtain ⟨q, hqq⟩ := List.getLast?_eq_some_iff.mp hlast
        have hdrop : s.mutex.queue.dropLast = q := by rw [hqq]; simp
        have hw : ∀ j, wait (h ++ [.unlock i (some w)]) j =
            (wait h j).map (fun (v, b) => (v, b || v == w)) := fun j => by rw [wait_snoc]; rfl
        have hnq : w ∉ q ∧ q.Nodup := by
          rw [hqq, List.nodup_append] at hn
          exact ⟨fun hm => hn.2.2 w hm w (by simp) rfl, hn.1⟩
        obtain ⟨j0, hj0⟩ := (hq w).mp (by rw [hqq]; simp)
        have huniq : ∀ j v b, wait h j = some (v, b) → v = w → j = j0 := by
          intro j v b hj hv
          have h2 := wait_polled hj
          have h3 := wait_polled hj0
          exact (hO j v false j0 w false (by simp [h2]) (by simp [h3])).mpr hv
        refine ⟨hE, ?_, ?_, ?_, ?_, ?_, ?_, ?_⟩
        · intro j hj; rw [hw, hg j hj]; rfl
        · intro j f hj
          rw [hw, hr j f hj]
          simp
        · simp only [hdrop]; exact hnq.2
        · intro v
          simp only [hdrop, hw, Option.map_eq_some_iff]
          constructor
          · intro hv
            obtain ⟨j, hj⟩ := (hq v).mp (by rw [hqq]; simp [hv])
            refine ⟨j, (v, false), hj, ?_⟩
            have : v ≠ w := by rintro rfl; exact hnq.1 hv
            simp [this]
          · rintro ⟨j, ⟨u, b⟩, hj, he⟩
            simp only [Prod.mk.injEq, Bool.or_eq_false_iff, beq_eq_false_iff_ne] at he
            obtain ⟨rfl, rfl, hne⟩ := he
            have := (hq u).mpr ⟨j, hj⟩
            rw [hqq, List.mem_append, List.mem_singleton] at this
            exact this.resolve_right hne
        · intro hb'; cases hb'
        · intro _ _
          exact ⟨j0, w, by rw [hw, hj0]; simp⟩
        · have aux : ∀ j v, wait (h ++ [.unlock i (some w)]) j = some (v, true) → j = j0 := by
            intro j v hj
            rw [hw, Option.map_eq_some_iff] at hj
            obtain ⟨⟨u, b⟩, hu, he⟩ := hj
            simp only [Prod.mk.injEq, Bool.or_eq_true, beq_iff_eq] at he
            obtain ⟨rfl, hbw⟩ := he
            rcases hbw with rfl | hbw
            · exact absurd hu (hh hb j u)
            · exact huniq j u b hu hbw
          intro j v k u hj hk
          rw [aux j v hj, aux k u hk]
    · cases hs

theorem Spec.NoCancel.prefix {h h' : List Ev} (hc : NoCancel (h ++ h')) : NoCancel h :=
  fun h1 i h2 he => hc h1 i (h2 ++ h') (by rw [he]; simp)

theorem Spec.OwnWakers.prefix {h h' : List Ev} (hc : OwnWakers (h ++ h')) : OwnWakers h :=
  fun i w r j v r' h1 h2 => hc i w r j v r' (by simp [h1]) (by simp [h2])

theorem Spec.NoBarging.prefix {h h' : List Ev} (hc : NoBarging (h ++ h')) : NoBarging h :=
  fun h1 i w r h2 he => hc h1 i w r (h2 ++ h') (by rw [he]; simp)

/-- C53, the part that holds: no wake-up is lost if no future is dropped while it waits, each future has
its own waker, and while the lock is free and somebody waits for it, only a future that was woken is
polled.

Missing: the statement without the last three hypotheses; it is false (`C53_refuted`,
`C53_refuted_cancel`). -/
theorem C53_partial (h : List Ev) (hh : History h) (hC : NoCancel h) (hO : OwnWakers h)
    (hB : NoBarging h) (hf : Free h) (hw : ∃ i, Waiting h i) : ∃ j, Woken h j := by
  obtain ⟨ops, s, hr⟩ := hh
  have key : NoCancel h ∧ OwnWakers h ∧ NoBarging h → Wake h s :=
    run_induction (P := fun h s => NoCancel h ∧ OwnWakers h ∧ NoBarging h → Wake h s)
      (fun _ => ⟨⟨by simp [World.new], by simp [gained, dropped, World.new],
          by simp [World.new, LocalMutex.new]⟩, fun _ _ => rfl, by simp [World.new],
        by simp [World.new, LocalMutex.new], by simp [World.new, LocalMutex.new, wait],
        by simp [World.new, LocalMutex.new], by simp [wait], by simp [wait]⟩)
      (fun h s o e s' ih hs ⟨hC, hO, hB⟩ =>
        wake_step (ih ⟨hC.prefix, hO.prefix, hB.prefix⟩) hs hC hO hB) hr
  have hW := key ⟨hC, hO, hB⟩
  have hb : s.mutex.borrowed = false := by
    have h2 := hW.excl.count
    have h3 := hW.excl.flag
    unfold Free at hf
    rcases hb : s.mutex.borrowed
    · rfl
    · have := List.length_pos_iff.mpr (h3.mp hb)
      omega
  obtain ⟨j, w, hj⟩ := hW.free hb hw
  exact ⟨j, w, hj⟩

/-- the hypotheses of `C53_partial` for the example: the lock is free at its end, the second future waits
and was woken -/
theorem syncDemo_orderly : NoCancel syncDemoLog ∧ OwnWakers syncDemoLog ∧ NoBarging syncDemoLog := by
  refine ⟨?_, ?_, ?_⟩
  · intro h1 i h2 he
    have : Ev.cancel i ∈ syncDemoLog := by rw [he]; simp
    simp [syncDemoLog] at this
  · intro i w r j v r' h1 h2
    simp only [syncDemoLog, List.mem_cons, List.not_mem_nil, or_false, reduceCtorEq, false_or,
      Ev.poll.injEq] at h1 h2
    rcases h1 with ⟨rfl, rfl, -⟩ | ⟨rfl, rfl, -⟩ | ⟨rfl, rfl, -⟩ | ⟨rfl, rfl, -⟩ <;>
      rcases h2 with ⟨rfl, rfl, -⟩ | ⟨rfl, rfl, -⟩ | ⟨rfl, rfl, -⟩ | ⟨rfl, rfl, -⟩ <;> decide
  · intro h1 i w r h2 he hf hw
    have ht : h1 = syncDemoLog.take h1.length := by rw [he]; simp
    have hget : syncDemoLog[h1.length]? = some (.poll i w r) := by rw [he]; simp
    have hlen : h1.length < 9 := by
      have := congrArg List.length he
      simp [syncDemoLog] at this; omega
    generalize h1.length = n at ht hget hlen
    subst ht
    have : n = 0 ∨ n = 1 ∨ n = 2 ∨ n = 3 ∨ n = 4 ∨ n = 5 ∨ n = 6 ∨ n = 7 ∨ n = 8 := by omega
    rcases this with rfl | rfl | rfl | rfl | rfl | rfl | rfl | rfl | rfl <;> cases hget
    · obtain ⟨j, hj⟩ := hw
      exact absurd (no_wait (n := 0) (by
        intro e he i w r hp
        simp only [syncDemoLog, List.take, List.mem_cons, List.not_mem_nil, or_false] at he
        rcases he with rfl | rfl | rfl <;> cases hp) j (Nat.zero_le _)) hj
    · exact absurd hf (by show ¬ (gained _ = dropped _); decide +kernel)
    · exact absurd hf (by show ¬ (gained _ = dropped _); decide +kernel)
    · exact ⟨12, by decide +kernel⟩

example : (∃ i, Waiting syncDemoLog i) ∧ ∃ j, Woken syncDemoLog j :=
  have hw : ∃ i, Waiting syncDemoLog i := ⟨1, by show wait _ _ ≠ _; decide +kernel⟩
  ⟨hw, C53_partial _ syncDemo_run syncDemo_orderly.1 syncDemo_orderly.2.1 syncDemo_orderly.2.2
    (by show gained _ = dropped _; decide +kernel) hw⟩

end Nora
