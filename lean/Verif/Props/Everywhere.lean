import Verif.Props.Waiting
/-
C114: at every moment each connection is where C99, C100 and C111 say that it can be, and if the server has
stopped then because of one of them.
-/
namespace Nora
open R Server

variable {cfg : Config}

/-- Where the connection of a client can be that connects with `s`, after the events `t`, with `rest` not yet read:
it has just been accepted, it is being authenticated, it is in the session of a user, or it has ended. If this stops
the server, it does not run. -/
inductive Spec.Somewhere (cfg : Config) (s : IoSt) (running : Bool) : Phase → List Event → Bytes → Prop
  | accepted : Somewhere cfg s running .new [] s.inp
  | undecided {phase t rest} : Spec.unknown phase = true → Spec.Undecided cfg s.rng s.inp s.log t rest →
    Somewhere cfg s running phase t rest
  | session {user st t rest} : Spec.Open cfg s.rng s.inp s.log user t →
    Somewhere cfg s running (.session user st) t rest
  | ended {stops t rest} : Spec.Closed cfg s.rng s.inp s.log stops t → (stops = true → running = false) →
    Somewhere cfg s running .ended t rest

/-- the steps of a client whose connection has ended: one of them has ended it -/
theorem ended_at (s : IoSt) (as : List Client.Step) (h : (Spec.alone cfg s as).phase = .ended) :
    ∃ as0 b more, as = as0 ++ b :: more ∧ (Spec.alone cfg s as0).phase ≠ .ended ∧
      (Spec.alone cfg s (as0 ++ [b])) = Spec.alone cfg s as := by
  induction as using list_snoc_induction with
  | nil => cases h
  | snoc as b ih =>
    by_cases h0 : (Spec.alone cfg s as).phase = .ended
    · obtain ⟨as0, b0, more, h1, h2, h3⟩ := ih h0
      refine ⟨as0, b0, more ++ [b], by rw [h1]; simp, h2, ?_⟩
      rw [h3, alone_snoc]
      generalize Spec.alone cfg s as = c at h0
      obtain ⟨phase, io⟩ := c
      change phase = .ended at h0
      subst h0
      rfl
    · exact ⟨as, b, [], rfl, h0, rfl⟩

/-- as long as the server runs, no step of a client has panicked -/
theorem running_steps {ops : List Op} (hr : (run cfg ops).running = true) {i : Nat} {s : IoSt}
    {as as0 more : List Client.Step} {b : Client.Step} (ho : Spec.own i ops = some (s, as)) (h : as = as0 ++ b :: more) :
    ((Spec.alone cfg s as0).poll cfg b).2 = false := by
  induction ops using list_snoc_induction generalizing as more with
  | nil => cases ho
  | snoc ops op ih =>
    have hr0 := running_before hr
    have ih := fun {as more} => ih (as := as) (more := more) hr0
    rw [own_snoc] at ho
    unfold Spec.own at ih
    cases op with
    | acceptPanics => exact ih ho h
    | accept s0 =>
      simp only [Spec.ownStep] at ho
      split at ho
      · cases ho
        cases as0 <;> cases h
      · exact ih ho h
    | poll j a =>
      simp only [Spec.ownStep] at ho
      split at ho
      · subst j
        cases hx : (ops.foldl (Spec.ownStep i) (0, none)).2 with
        | none => rw [hx] at ho; cases ho
        | some x =>
          obtain ⟨s1, as1⟩ := x
          rw [hx] at ho
          simp only [Option.map_some, Option.some.injEq, Prod.mk.injEq] at ho
          obtain ⟨rfl, rfl⟩ := ho
          rcases List.eq_nil_or_concat more with rfl | ⟨more', x, rfl⟩
          · obtain ⟨e1, e2⟩ := List.append_inj' h rfl
            cases e1
            cases e2
            cases hp : ((Spec.alone cfg s1 as0).poll cfg b).2 with
            | false => rfl
            | true =>
              have := C51_stops cfg ops i b s1 as0 hr0 hx ⟨as0, b, rfl, hp⟩ []
              rw [hr] at this
              cases this
          · rw [List.concat_eq_append, ← List.cons_append, ← List.append_assoc] at h
            exact ih hx (List.append_inj' h rfl).1
      · exact ih ho h

/-- C114: in every run of the server, whatever all the clients do and whether it is still running, each connection is
in a place that the specification has for it. -/
theorem C114_everywhere (cfg : Config) (hid : Spec.Fits cfg.ident) (ops : List Op) (i : Nat) (c : Conn) (s : IoSt)
    (as : List Client.Step) (t : List Event) (hc : (run cfg ops).conns[i]? = some c)
    (ho : Spec.own i ops = some (s, as)) (hw : s.wcap = none) (hlen : s.inp.length + 4 < 2 ^ 64)
    (hsm : Spec.Smooth as) (ht : c.io.log = s.log ++ t) (hfew : Spec.Few t) :
    Spec.Somewhere cfg s (run cfg ops).running c.phase t c.io.inp := by
  obtain ⟨s', as', more, h1, h2, -⟩ := conn_of_run hc
  rw [ho] at h1
  cases h1
  by_cases he : c.phase = .ended
  · rw [h2] at he
    obtain ⟨as0, b, more', h3, h4, h5⟩ := ended_at s as' he
    obtain ⟨g1, g2⟩ := run_solo s as0 h4
    have hrun : run cfg (.accept s :: as0.map (.poll 0) ++ [.poll 0 b]) =
        ⟨[Spec.alone cfg s (as0 ++ [b])], !((Spec.alone cfg s as0).poll cfg b).2⟩ := by
      rw [run_snoc, g1, alone_snoc]
      rfl
    have hcl := (C100_closed cfg s ((Spec.alone cfg s as0).poll cfg b).2 t hid hw hlen hfew).mp
      ⟨.accept s :: as0.map (.poll 0), 0, as0, b, Spec.alone cfg s as0, c.io, by rw [g1], g2,
        fun cut e h => hsm cut e (by
          rw [h3]
          rcases List.mem_append.mp h with h | h
          · exact List.mem_append_left _ (List.mem_append_left _ h)
          · exact List.mem_append_left _ (List.mem_append_right _ (by
              cases List.mem_singleton.mp h
              exact .head _))),
        by rw [g1]; rfl, h4, by
          rw [hrun, h5, ← h2]
          rw [← h2] at he
          show some c = _
          rw [← he], by rw [hrun], ht⟩
    rw [← h2] at he
    rw [he]
    refine .ended hcl fun hs => ?_
    cases hr : (run cfg ops).running with
    | false => rfl
    | true =>
      rw [running_steps hr ho (by rw [h3, List.append_assoc]; rfl)] at hs
      cases hs
  · rw [h2] at he
    obtain ⟨g1, g2⟩ := run_solo s as' he
    rw [← h2] at g1 he
    have hinv := (alone_inv hid s as').2
    rw [← h2] at hinv
    obtain ⟨phase, io⟩ := c
    have hun : Spec.unknown phase = true → Spec.Somewhere cfg s (run cfg ops).running phase t io.inp := fun hu =>
      .undecided hu ((C111_waiting cfg s t io.inp hid hw hlen).mp
        ⟨_, 0, as', ⟨phase, io⟩, by rw [g1], g2, by rw [g1]; rfl, hu, ht, rfl⟩)
    cases phase with
    | ended => exact absurd rfl he
    | service _ => exact hun rfl
    | auth _ _ => exact hun rfl
    | new =>
      change io = s at hinv
      subst hinv
      have : t = [] := by simpa using ht
      subst this
      exact .accepted
    | session user st =>
      exact .session ((C100_open cfg s user t hid hw hlen hfew).mp ⟨_, 0, as', st, io, by rw [g1], g2,
        fun cut e h => hsm cut e (List.mem_append_left _ h), by rw [g1]; rfl, ht⟩)

theorem run_stopped {pre : List Op} (h : (run cfg pre).running = false) (post : List Op) :
    run cfg (pre ++ post) = run cfg pre := by
  induction post using list_snoc_induction with
  | nil => rw [List.append_nil]
  | snoc post op ih =>
    rw [← List.append_assoc, run_snoc, ih]
    unfold State.step
    rw [h]
    rfl

/-- C114: if the server has stopped, one of its connections has ended in a way that stops it, as the specification
says; unless it could not accept a connection. -/
theorem C114_stopped (cfg : Config) (hid : Spec.Fits cfg.ident) (ops : List Op) (ha : .acceptPanics ∉ ops)
    (hops : ∀ i c s as t, (run cfg ops).conns[i]? = some c → Spec.own i ops = some (s, as) →
      c.io.log = s.log ++ t → s.wcap = none ∧ s.inp.length + 4 < 2 ^ 64 ∧ Spec.Smooth as ∧ Spec.Few t)
    (hr : (run cfg ops).running = false) :
    ∃ i io s as t, (run cfg ops).conns[i]? = some ⟨.ended, io⟩ ∧ Spec.own i ops = some (s, as) ∧
      io.log = s.log ++ t ∧ Spec.Closed cfg s.rng s.inp s.log true t := by
  rcases C51_stopped cfg ops hr with h | ⟨pre, post, i, a, s, as, h1, h2, h3, as0, b, rfl, h4⟩
  · exact absurd h ha
  rw [own_snoc] at h3
  cases hx : Spec.own i pre with
  | none =>
    unfold Spec.own at hx
    simp only [Spec.ownStep, if_true, hx] at h3
    cases h3
  | some x =>
    obtain ⟨s', as⟩ := x
    have hx' := hx
    unfold Spec.own at hx
    simp only [Spec.ownStep, if_true, hx, Option.map_some, Option.some.injEq, Prod.mk.injEq] at h3
    obtain ⟨rfl, h3⟩ := h3
    obtain ⟨e1, e2⟩ := List.append_inj' h3 rfl
    cases e1
    cases e2
    have h5 : (run cfg (pre ++ [.poll i a])).running = false :=
      C51_stops cfg pre i a s' as0 h2 hx' ⟨as0, a, rfl, h4⟩ []
    have h6 : run cfg ops = run cfg (pre ++ [.poll i a]) := by
      rw [h1, ← run_stopped h5 post, List.append_assoc]
      rfl
    have h7 : (run cfg pre).conns[i]? = some (Spec.alone cfg s' as0) := by
      rw [C51_isolated_partial cfg pre h2, hx']
      rfl
    have hne : (Spec.alone cfg s' as0).phase ≠ .ended := by
      intro h
      unfold Conn.poll at h4
      rw [h] at h4
      cases h4
    have h8 : ((Spec.alone cfg s' as0).poll cfg a).1.phase = .ended := by
      unfold Conn.poll at h4 ⊢
      split at h4 <;> first | rfl | cases h4
    have h9 : (run cfg ops).conns[i]? = some ((Spec.alone cfg s' as0).poll cfg a).1 := by
      rw [h6, run_snoc]
      unfold State.step
      rw [if_pos h2]
      simp only [h7]
      rw [List.getElem?_set_self (List.getElem?_eq_some_iff.mp h7).1]
    obtain ⟨more, ho⟩ := own_append (i := i) (s := s') (as := as0 ++ [a]) (pre := pre ++ [.poll i a]) post (by
      rw [own_snoc]
      simp only [Spec.ownStep, if_true, hx, Option.map_some])
    rw [List.append_assoc] at ho
    replace ho : Spec.own i ops = some (s', as0 ++ [a] ++ more) := by rw [h1]; exact ho
    generalize ((Spec.alone cfg s' as0).poll cfg a).1 = c at h8 h9
    obtain ⟨phase, io⟩ := c
    change phase = .ended at h8
    subst h8
    obtain ⟨t, ht⟩ : ∃ t, io.log = s'.log ++ t := by
      obtain ⟨s2, as2, t, e1, e2, -⟩ := C67_input cfg hid ops h9
      rw [ho] at e1
      cases e1
      exact ⟨t, e2⟩
    obtain ⟨k1, k2, k3, k4⟩ := hops i _ s' _ t h9 ho ht
    refine ⟨i, io, s', _, t, h9, ho, ht, (C100_closed cfg s' true t hid k1 k2 k4).mp ⟨pre, i, as0, a, _, io, h2, hx',
      fun cut e h => k3 cut e ?_, h7, hne, by rw [← h6]; exact h9, h5, ht⟩⟩
    exact List.mem_append_left _ h

/-! ### examples -/

/-- The premises of `C114_everywhere`: a session in which a process was started. -/
example : ∃ ops c as, (run wholeConfig ops).conns[0]? = some c ∧
    Spec.own 0 ops = some (clientState wholePayloads [9], as) ∧ (clientState wholePayloads [9]).wcap = none ∧
    (clientState wholePayloads [9]).inp.length + 4 < 2 ^ 64 ∧ Spec.Smooth as ∧ c.io.log = [] ++ wholeLog ∧
    Spec.Few wholeLog := by
  obtain ⟨ops, m, st, io, -, h1, h2, h3⟩ := whole_run
  exact ⟨ops, _, _, h2, h1, rfl, by decide +kernel, smooth_messages m, h3, by unfold Spec.Few; decide +kernel⟩

/-- a client that announces a packet that does not quite fit -/
def windowState : IoSt :=
  { inp := b! "SSH-2.0-c\r\n" ++ Spec.u32 65535, out := [], wcap := none, rng := fun _ => 0, log := [] }

theorem window_shakes : Spec.Shakes windowState.inp (.panics none) :=
  .greeting (id := b! "SSH-2.0-c") ((C21_exact _ _ _).mp (by decide +kernel))
    (.length ⟨65535, [], rfl, by decide, by decide, by decide⟩)

/-- The premises of `C114_stopped`: this client stops the server. -/
example : ∃ ops, .acceptPanics ∉ ops ∧ (run wholeConfig ops).running = false ∧
    ∀ i c s as t, (run wholeConfig ops).conns[i]? = some c → Spec.own i ops = some (s, as) →
      c.io.log = s.log ++ t → s.wcap = none ∧ s.inp.length + 4 < 2 ^ 64 ∧ Spec.Smooth as ∧ Spec.Few t := by
  obtain ⟨as, b, io, h1, h2, h3, h4⟩ := (alone_closed (cfg := wholeConfig) (s := windowState) (t := []) (by decide) rfl
    (by decide +kernel) (by unfold Spec.Few; decide)).mpr (.panicked window_shakes)
  obtain ⟨g1, g2⟩ := run_solo windowState as h2
  have hrun : run wholeConfig (.accept windowState :: as.map (.poll 0) ++ [.poll 0 b]) = ⟨[⟨.ended, io⟩], false⟩ := by
    rw [run_snoc, g1]
    show State.mk [_] _ = _
    rw [h3]
    rfl
  refine ⟨_, ?_, by rw [hrun], ?_⟩
  · simp
  · intro i c s as' t hc ho ht
    rw [hrun] at hc
    cases i with
    | succ i => cases hc
    | zero =>
      cases hc
      rw [own_snoc] at ho
      unfold Spec.own at g2
      simp only [Spec.ownStep, if_true, g2, Option.map_some, Option.some.injEq, Prod.mk.injEq] at ho
      obtain ⟨rfl, rfl⟩ := ho
      rw [h4] at ht
      obtain rfl := List.append_cancel_left ht
      exact ⟨rfl, by decide +kernel, h1, by unfold Spec.Few; decide⟩

end Nora
