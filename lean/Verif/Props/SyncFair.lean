import Verif.Props.Sync
/-
C72: who gets the mutex of the write half.
-/
namespace Nora
open Sync Spec

/-- C72 as stated: a future that waits is woken after a number of releases that depends only on what
happened until then, if futures that wait are not dropped or overtaken. -/
def C72_statement : Prop :=
  ∀ h1 i, History h1 → Waiting h1 i → ∃ B, ∀ h2, History (h1 ++ h2) → NoCancel (h1 ++ h2) →
    OwnWakers (h1 ++ h2) → NoBarging (h1 ++ h2) → B ≤ dropped h2 →
    ∃ a c, h2 = a ++ c ∧ Woken (h1 ++ a) i

/-! ### what holds -/

/-- somebody with the waker `v` has waited before anybody was polled with `w` -/
def Sync.Earlier (h : List Ev) (v w : Waker) : Prop :=
  ∃ a c, h = a ++ c ∧ (∃ j b, wait a j = some (v, b)) ∧ ∀ i r, .poll i w r ∉ a

theorem Sync.Earlier.snoc {h : List Ev} {v w : Waker} (e : Ev) (hE : Earlier h v w) :
    Earlier (h ++ [e]) v w := by
  obtain ⟨a, c, rfl, h1, h2⟩ := hE
  exact ⟨a, c ++ [e], by simp, h1, h2⟩

structure Sync.Lifo (h : List Ev) (s : World) : Prop where
  wake : Wake h s
  fresh : ∀ i, (s.futs.length ≤ i ∨ ∃ f, s.futs[i]? = some (some f) ∧ f.registered = false) →
    ∀ w r, .poll i w r ∉ h
  sorted : s.mutex.queue.Pairwise (Earlier h)

theorem Sync.lifo_step {h : List Ev} {s : World} {o : Op} {e : Ev} {s' : World}
    (hI : Lifo h s) (hs : s.step o = some (e, s')) (hC : NoCancel (h ++ [e]))
    (hO : OwnWakers (h ++ [e])) (hB : NoBarging (h ++ [e])) : Lifo (h ++ [e]) s' := by
  have hW := wake_step hI.wake hs hC hO hB
  obtain ⟨hW0, hF, hS⟩ := hI
  have mono : ∀ {q : List Waker}, q.Pairwise (Earlier h) → q.Pairwise (Earlier (h ++ [e])) :=
    fun hq => hq.imp (Earlier.snoc e)
  -- events that are no polls, and do not change futures
  have other : (∀ i w r, e ≠ .poll i w r) → ∀ i, (∀ w r, Ev.poll i w r ∉ h) →
      ∀ w r, Ev.poll i w r ∉ h ++ [e] := by
    intro he i hi w r hm
    rcases List.mem_append.mp hm with hm | hm
    · exact hi w r hm
    · exact he i w r (List.mem_singleton.mp hm).symm
  cases o with
  | lock =>
    cases hs
    refine ⟨hW, fun i hi => other (by simp) i (hF i ?_), mono hS⟩
    rcases hi with hi | ⟨f, hi, hf⟩
    · simp at hi; exact .inl (by omega)
    · simp only [List.getElem?_append] at hi
      split at hi
      · exact .inr ⟨f, hi, hf⟩
      · rename_i hlt; exact .inl (by omega)
  | cancel i =>
    simp only [World.step] at hs
    split at hs
    · cases hs
      refine ⟨hW, fun j hj => other (by simp) j (hF j ?_), mono hS⟩
      rcases hj with hj | ⟨f, hj, hf⟩
      · simp at hj; exact .inl hj
      · by_cases hij : i = j
        · subst hij; simp [List.getElem?_set] at hj
        · simp only [List.getElem?_set_ne hij] at hj
          exact .inr ⟨f, hj, hf⟩
    · cases hs
  | unlock i =>
    simp only [World.step] at hs
    split at hs
    · cases hs
      exact ⟨hW, fun j hj => other (by simp) j (hF j hj), mono (hS.sublist (List.dropLast_sublist _))⟩
    · cases hs
  | poll i w =>
    simp only [World.step] at hs
    split at hs
    · rename_i f hfi
      have hlt := (List.getElem?_eq_some_iff.mp hfi).1
      -- futures that were not polled are others
      have keep : ∀ (r : Bool) (x : Option GuardFuture) (he : e = .poll i w r)
          (hx : ∀ f, x = some f → f.registered = true), ∀ j,
          ((s.futs.set i x).length ≤ j ∨ ∃ f, (s.futs.set i x)[j]? = some (some f) ∧ f.registered = false) →
          ∀ w r, Ev.poll j w r ∉ h ++ [e] := by
        intro r x he hx j hj v r' hm
        have hij : i ≠ j := by
          rintro rfl
          rcases hj with hj | ⟨f', hj, hf'⟩
          · simp at hj; omega
          · simp [hlt] at hj
            rw [hx f' hj] at hf'
            cases hf'
        rcases List.mem_append.mp hm with hm | hm
        · refine hF j ?_ v r' hm
          rcases hj with hj | ⟨f', hj, hf'⟩
          · simp at hj; exact .inl hj
          · simp only [List.getElem?_set_ne hij] at hj
            exact .inr ⟨f', hj, hf'⟩
        · rw [he] at hm
          simp at hm
          exact hij hm.1.symm
      simp only [LocalMutex.poll] at hs
      by_cases hb : s.mutex.borrowed
      · by_cases hr : f.registered
        · simp [hb, hr] at hs
          obtain ⟨rfl, rfl⟩ := hs
          exact ⟨hW, keep false _ rfl (by rintro f ⟨⟩; exact hr), mono hS⟩
        · simp [hb, hr] at hs
          obtain ⟨rfl, rfl⟩ := hs
          refine ⟨hW, keep false _ rfl (by rintro f ⟨⟩; rfl), ?_⟩
          show (s.mutex.queue ++ [w]).Pairwise _
          rw [List.pairwise_append]
          refine ⟨mono hS, by simp, ?_⟩
          intro v hv u hu
          cases List.mem_singleton.mp hu
          obtain ⟨j, hj⟩ := (hW0.queue v).mp hv
          refine ⟨h, [_], rfl, ⟨j, _, hj⟩, fun k r hm => ?_⟩
          have := (hO k w r i w false (by simp [hm]) (by simp)).mpr rfl
          subst this
          exact hF k (.inr ⟨f, hfi, by simpa using hr⟩) w r hm
      · simp [hb] at hs
        obtain ⟨rfl, rfl⟩ := hs
        exact ⟨hW, keep true none rfl (by simp), mono hS⟩
    · cases hs

theorem Sync.lifo {ops : List Op} {h : List Ev} {s : World} (hr : World.new.run ops = some (h, s))
    (hC : NoCancel h) (hO : OwnWakers h) (hB : NoBarging h) : Lifo h s :=
  run_induction (P := fun h s => NoCancel h ∧ OwnWakers h ∧ NoBarging h → Lifo h s)
    (fun _ => ⟨⟨⟨by simp [World.new], by simp [gained, dropped, World.new],
        by simp [World.new, LocalMutex.new]⟩, fun _ _ => rfl, by simp [World.new],
      by simp [World.new, LocalMutex.new], by simp [World.new, LocalMutex.new, wait],
      by simp [World.new, LocalMutex.new], by simp [wait], by simp [wait]⟩, by simp,
      by simp [World.new, LocalMutex.new]⟩)
    (fun h s o e s' ih hs ⟨hC, hO, hB⟩ =>
      lifo_step (ih ⟨hC.prefix, hO.prefix, hB.prefix⟩) hs hC hO hB) hr ⟨hC, hO, hB⟩

/-- the last event of a history, and the state before -/
theorem Sync.history_snoc {h : List Ev} {e : Ev} (hh : History (h ++ [e])) :
    ∃ ops s o s', World.new.run ops = some (h, s) ∧ s.step o = some (e, s') := by
  obtain ⟨ops, s', hr⟩ := hh
  have hl := run_length hr
  have hne : ops ≠ [] := by
    rintro rfl
    simp at hl
  rw [← List.dropLast_concat_getLast hne] at hr
  obtain ⟨a, b, s1, he, hA, hB⟩ := run_append hr
  have hb : b.length = 1 := by rw [run_length hB]; rfl
  obtain ⟨rfl, hb'⟩ := List.append_inj' he (by rw [hb]; rfl)
  subst hb'
  rw [World.run] at hB
  split at hB
  · rename_i e' s2 hs
    rw [World.run] at hB
    cases hB
    exact ⟨_, s1, _, _, hA, hs⟩
  · cases hB

/-- C72, what holds: the release wakes the future that has begun to wait last: when it was polled first, all
others that wait for a wake-up were already waiting. So those that wait first get the lock last.

Missing: the statement, which is false (`C72_refuted`). -/
theorem C72_lifo_partial (h : List Ev) (k : Nat) (w : Waker) (hh : History (h ++ [.unlock k (some w)]))
    (hC : NoCancel h) (hO : OwnWakers h) (hB : NoBarging h) :
    ∃ i, wait h i = some (w, false) ∧ ∀ j v, wait h j = some (v, false) → j ≠ i →
      ∃ a c, h = a ++ c ∧ Waiting a j ∧ ∀ u r, .poll i u r ∉ a := by
  obtain ⟨ops, s, o, s', hr, hs⟩ := history_snoc hh
  have hL := lifo hr hC hO hB
  have hlast : s.mutex.queue.getLast? = some w := by
    cases o with
    | unlock i =>
      simp only [World.step] at hs
      split at hs
      · simp only [LocalMutex.dropGuard, LocalMutex.popWaker, Option.some.injEq, Prod.mk.injEq,
          Ev.unlock.injEq] at hs
        exact hs.1.2
      · cases hs
    | lock => cases hs
    | cancel i =>
      simp only [World.step] at hs
      split at hs <;> cases hs
    | poll i w =>
      simp only [World.step] at hs
      split at hs
      · split at hs <;> cases hs
      · cases hs
  obtain ⟨q, hq⟩ := List.getLast?_eq_some_iff.mp hlast
  obtain ⟨i, hi⟩ := (hL.wake.queue w).mp (by rw [hq]; simp)
  refine ⟨i, hi, fun j v hj hne => ?_⟩
  have hpi := wait_polled hi
  have hpj := wait_polled hj
  have hvq : v ∈ q := by
    have := (hL.wake.queue v).mpr ⟨j, hj⟩
    rw [hq, List.mem_append, List.mem_singleton] at this
    refine this.resolve_right fun hv => hne ?_
    exact (hO j v false i w false hpj hpi).mpr hv
  have hS := hL.sorted
  rw [hq, List.pairwise_append] at hS
  obtain ⟨a, c, rfl, ⟨j', b, h1⟩, h2⟩ := hS.2.2 v hvq w (by simp)
  have hj' : j' = j := by
    have := wait_polled h1
    exact (hO j' v false j v false (by simp [this]) hpj).mpr rfl
  subst hj'
  refine ⟨a, c, rfl, by rw [Waiting, h1]; simp, fun u r hm => ?_⟩
  have := (hO i u r i w false (by simp [hm]) hpi).mp rfl
  subst this
  exact h2 i r hm

-- the example: the second and the third future wait, and the release wakes the third
example : ∃ a c, syncDemoLog.take 6 = a ++ c ∧ Waiting a 1 ∧ ∀ u r, .poll 2 u r ∉ a := by
  have hp : syncDemoLog = syncDemoLog.take 6 ++ syncDemoLog.drop 6 := (List.take_append_drop _ _).symm
  obtain ⟨hC, hO, hB⟩ := syncDemo_orderly
  rw [hp] at hC hO hB
  obtain ⟨i, h1, h2⟩ := C72_lifo_partial (syncDemoLog.take 6) 0 12
    (Spec.History.prefix (h2 := syncDemoLog.drop 7) syncDemo_run) hC.prefix hO.prefix hB.prefix
  have h3 : wait (syncDemoLog.take 6) 2 = some (12, false) := by decide +kernel
  have : i = 2 := (hO.prefix i 12 false 2 12 false (wait_polled h1) (wait_polled h3)).mpr rfl
  subst this
  exact h2 1 11 (by decide +kernel) (by decide)

/-! ### starvation -/

/-- who has the lock after `n` rounds -/
def holder (n : Nat) : Nat := if n = 0 then 0 else n + 1

/-- The first future has the lock, the second waits. Then in each round a new future waits, the lock is
released, and the new one gets it. -/
def starveOps : Nat → List Op
  | 0 => [.lock, .lock, .poll 0 0, .poll 1 1]
  | n + 1 => starveOps n ++ [.lock, .poll (n + 2) (n + 2), .unlock (holder n), .poll (n + 2) (n + 2)]

def starveRound (n : Nat) : List Ev :=
  [.lock, .poll (n + 2) (n + 2) false, .unlock (holder n) (some (n + 2)), .poll (n + 2) (n + 2) true]

def starveStart : List Ev := [.lock, .lock, .poll 0 0 true, .poll 1 1 false]

/-- what happens in the rounds -/
def starve : Nat → List Ev
  | 0 => []
  | n + 1 => starve n ++ starveRound n

theorem Sync.run_concat {s s1 s2 : World} {a b : List Op} {h h2 : List Ev} (hA : s.run a = some (h, s1))
    (hB : s1.run b = some (h2, s2)) : s.run (a ++ b) = some (h ++ h2, s2) := by
  induction a generalizing s h with
  | nil => cases hA; exact hB
  | cons o os ih =>
    rw [World.run] at hA
    split at hA
    · rename_i e s3 hs
      split at hA
      · rename_i es s4 hr
        cases hA
        rw [List.cons_append, World.run, hs]
        simp only [ih hr, List.cons_append]
      · cases hA
    · cases hA

theorem starve_run (n : Nat) : World.new.run (starveOps n) = some (starveStart ++ starve n,
    { mutex := { borrowed := true, queue := [1] },
      futs := [none, some { registered := true }] ++ List.replicate n none, guards := [holder n] }) := by
  induction n with
  | zero => rfl
  | succ n ih =>
    rw [starveOps, starve, ← List.append_assoc]
    refine run_concat ih ?_
    have hlen : ([none, some { registered := true }] ++ List.replicate n none :
      List (Option GuardFuture)).length = n + 2 := by simp
    generalize hfs : ([none, some { registered := true }] ++ List.replicate n none :
      List (Option GuardFuture)) = fs at hlen ⊢
    have hr : [none, some { registered := true }] ++ List.replicate (n + 1) none = fs ++ [none] := by
      rw [← hfs, List.replicate_succ', List.append_assoc]
    have g1 : ∀ x : Option GuardFuture, (fs ++ [x])[n + 2]? = some x := by intro x; rw [← hlen]; simp
    have g2 : ∀ x y : Option GuardFuture, (fs ++ [x]).set (n + 2) y = fs ++ [y] := by
      intro x y; rw [← hlen]; simp
    rw [hr]
    have e1 : World.step ⟨⟨true, [1]⟩, fs, [holder n]⟩ .lock =
      some (.lock, ⟨⟨true, [1]⟩, fs ++ [some ⟨false⟩], [holder n]⟩) := rfl
    have e2 : World.step ⟨⟨true, [1]⟩, fs ++ [some ⟨false⟩], [holder n]⟩ (.poll (n + 2) (n + 2)) =
        some (.poll (n + 2) (n + 2) false,
          ⟨⟨true, [1, n + 2]⟩, fs ++ [some ⟨true⟩], [holder n]⟩) := by
      simp only [World.step, g1]
      simp only [LocalMutex.poll, LocalMutex.pushWaker, if_true, Bool.false_eq_true, if_false, g2]
      rfl
    have e3 : World.step ⟨⟨true, [1, n + 2]⟩, fs ++ [some ⟨true⟩], [holder n]⟩ (.unlock (holder n)) =
        some (.unlock (holder n) (some (n + 2)), ⟨⟨false, [1]⟩, fs ++ [some ⟨true⟩], []⟩) := by
      simp [World.step, LocalMutex.dropGuard, LocalMutex.popWaker]
    have e4 : World.step ⟨⟨false, [1]⟩, fs ++ [some ⟨true⟩], []⟩ (.poll (n + 2) (n + 2)) =
        some (.poll (n + 2) (n + 2) true, ⟨⟨true, [1]⟩, fs ++ [none], [n + 2]⟩) := by
      simp only [World.step, g1]
      simp only [LocalMutex.poll, Bool.false_eq_true, if_false, g2]
    simp only [World.run, e1, e2, e3, e4]
    rfl

theorem Spec.NoBarging.snoc {h : List Ev} {e : Ev} (hB : NoBarging h)
    (he : ∀ i w r, e = .poll i w r → Free h → (∃ j, Waiting h j) → Woken h i) : NoBarging (h ++ [e]) := by
  intro h1 i w r h2 h3
  rcases List.eq_nil_or_concat h2 with rfl | ⟨h2, e', rfl⟩
  · obtain ⟨rfl, h4⟩ := List.append_inj' h3 rfl
    exact he i w r (by simpa using h4)
  · rw [List.concat_eq_append, ← List.cons_append, ← List.append_assoc] at h3
    exact hB h1 i w r h2 (List.append_inj' h3 rfl).1

/-- who was woken is so by a release -/
theorem Spec.wait_woken {h : List Ev} {i : Nat} {w : Waker} (hw : wait h i = some (w, true)) :
    ∃ k, .unlock k (some w) ∈ h := by
  have key : ∀ (h : List Ev) (a : Option (Waker × Bool)),
      h.foldl (waitStep i) a = some (w, true) → a = some (w, true) ∨ ∃ k, .unlock k (some w) ∈ h := by
    intro h
    induction h with
    | nil => exact fun a ha => .inl ha
    | cons e t ih =>
      intro a ha
      rw [List.foldl_cons] at ha
      rcases ih _ ha with hb | ⟨k, hm⟩
      · cases e with
        | lock => exact .inl hb
        | poll j v r =>
          simp only [waitStep] at hb
          split at hb
          · split at hb <;> cases hb
          · exact .inl hb
        | cancel j =>
          simp only [waitStep] at hb
          split at hb
          · cases hb
          · exact .inl hb
        | unlock j v =>
          cases v with
          | none => exact .inl hb
          | some v =>
            simp only [waitStep, Option.map_eq_some_iff] at hb
            obtain ⟨⟨x, c⟩, hq, he⟩ := hb
            simp only [Prod.mk.injEq, Bool.or_eq_true, beq_iff_eq] at he
            obtain ⟨rfl, rfl | rfl⟩ := he
            · exact .inl hq
            · exact .inr ⟨j, by simp⟩
      · exact .inr ⟨k, List.mem_cons_of_mem _ hm⟩
  rcases key h none hw with h' | h'
  · cases h'
  · exact h'

theorem starve_events (n : Nat) : ∀ e ∈ starveStart ++ starve n,
    (∀ i, e ≠ .cancel i) ∧ (∀ i w r, e = .poll i w r → w = i) ∧ ∀ k w, e = .unlock k (some w) → w ≠ 1 := by
  induction n with
  | zero =>
    intro e he
    simp only [starve, starveStart, List.append_nil, List.mem_cons, List.not_mem_nil, or_false] at he
    rcases he with rfl | rfl | rfl | rfl <;> simp
  | succ n ih =>
    intro e he
    rw [starve, ← List.append_assoc, List.mem_append] at he
    rcases he with he | he
    · exact ih e he
    · simp only [starveRound, List.mem_cons, List.not_mem_nil, or_false] at he
      rcases he with rfl | rfl | rfl | rfl <;> simp

theorem starve_dropped (n : Nat) : dropped (starve n) = n ∧ gained (starveStart ++ starve n) = n + 1 ∧
    dropped (starveStart ++ starve n) = n := by
  induction n with
  | zero => decide
  | succ n ih =>
    obtain ⟨h1, h2, h3⟩ := ih
    rw [starve, ← List.append_assoc]
    simp only [dropped, gained, List.countP_append] at *
    simp [starveRound]
    omega

theorem starve_barging (n : Nat) : NoBarging (starveStart ++ starve n) := by
  induction n with
  | zero =>
    have : starveStart ++ starve 0 = [] ++ [.lock] ++ [.lock] ++ [.poll 0 0 true] ++ [.poll 1 1 false] := rfl
    rw [this]
    refine .snoc (.snoc (.snoc (.snoc ?_ (by simp)) (by simp)) ?_) ?_
    · intro h1 i w r h2 he; simp at he
    · rintro i w r ⟨⟩ - ⟨j, hj⟩
      exact absurd rfl hj
    · rintro i w r ⟨⟩ hf
      exact absurd hf (by show ¬ (gained _ = dropped _); decide)
  | succ n ih =>
    obtain ⟨-, h2, h3⟩ := starve_dropped n
    generalize hh : starveStart ++ starve n = h at *
    have : starveStart ++ starve (n + 1) = h ++ [.lock] ++ [.poll (n + 2) (n + 2) false] ++
        [.unlock (holder n) (some (n + 2))] ++ [.poll (n + 2) (n + 2) true] := by
      rw [starve, ← List.append_assoc, hh, starveRound]
      simp
    rw [this]
    refine .snoc (.snoc (.snoc (.snoc ih (by simp)) ?_) (by simp)) ?_
    · rintro i w r ⟨⟩ hf
      rw [Free, gained_snoc, dropped_snoc] at hf
      simp [gained, dropped] at hf h2 h3
      omega
    · rintro i w r ⟨⟩ - -
      refine ⟨n + 2, ?_⟩
      rw [wait_snoc, wait_snoc]
      simp [waitStep]

/-- C72 is false: a future that waits can be passed by any number of others that come later, even if nobody
is dropped and only futures that were woken take the lock. -/
theorem C72_starvation (n : Nat) : History (starveStart ++ starve n) ∧ NoCancel (starveStart ++ starve n) ∧
    OwnWakers (starveStart ++ starve n) ∧ NoBarging (starveStart ++ starve n) ∧
    Waiting starveStart 1 ∧ dropped (starve n) = n ∧
    ∀ a c, starve n = a ++ c → ¬ Woken (starveStart ++ a) 1 := by
  have hev := starve_events n
  refine ⟨⟨_, _, starve_run n⟩, ?_, ?_, starve_barging n, ?_, (starve_dropped n).1, ?_⟩
  · intro h1 i h2 he
    exact absurd rfl ((hev (.cancel i) (by rw [he]; simp)).1 i)
  · intro i w r j v r' h1 h2
    rw [(hev _ h1).2.1 i w r rfl, (hev _ h2).2.1 j v r' rfl]
  · show wait _ _ ≠ _
    decide
  · rintro a c he ⟨w, hw⟩
    have hsub : ∀ e ∈ starveStart ++ a, e ∈ starveStart ++ starve n := by
      intro e h
      rw [he, ← List.append_assoc]
      exact List.mem_append_left _ h
    have h1 := (hev _ (hsub _ (wait_polled hw))).2.1 1 w false rfl
    obtain ⟨k, hk⟩ := wait_woken hw
    exact (hev _ (hsub _ hk)).2.2 k w rfl h1

theorem C72_refuted : ¬ C72_statement := by
  intro h
  obtain ⟨-, -, -, -, h5, -⟩ := C72_starvation 0
  obtain ⟨B, hB⟩ := h starveStart 1 (Spec.History.prefix (C72_starvation 0).1) h5
  obtain ⟨h1, h2, h3, h4, -, h6, h7⟩ := C72_starvation B
  obtain ⟨a, c, h8, h9⟩ := hB (starve B) h1 h2 h3 h4 (by omega)
  exact h7 a c h8 h9

end Nora
