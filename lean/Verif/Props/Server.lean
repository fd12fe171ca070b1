import Verif.Model.Server
import Verif.Props.Auth
import Verif.Lemmas.ConnExec
/-
C51: clients are isolated.
-/
namespace Nora
open R Server

variable {cfg : Config}

/-- the part of a schedule that concerns the client `i`: its connection, and its steps; also how many
connections there were -/
def Spec.ownStep (i : Nat) (x : Nat × Option (IoSt × List Client.Step)) :
    Op → Nat × Option (IoSt × List Client.Step)
  | .accept s => (x.1 + 1, if x.1 = i then some (s, []) else x.2)
  | .acceptPanics => x
  | .poll j a => (x.1, if j = i then x.2.map (fun y => (y.1, y.2 ++ [a])) else x.2)

def Spec.own (i : Nat) (ops : List Op) : Option (IoSt × List Client.Step) :=
  (ops.foldl (ownStep i) (0, none)).2

/-- a client alone, with these steps -/
def Spec.alone (cfg : Config) (s : IoSt) (as : List Client.Step) : Conn :=
  as.foldl (fun c a => (c.poll cfg a).1) ⟨.new, s⟩

/-- whether the last of these steps of a client alone panics -/
def Spec.AlonePanics (cfg : Config) (s : IoSt) (as : List Client.Step) : Prop :=
  ∃ as0 a, as = as0 ++ [a] ∧ ((alone cfg s as0).poll cfg a).2 = true

theorem run_snoc (ops : List Op) (op : Op) : run cfg (ops ++ [op]) = (run cfg ops).step cfg op := by
  simp [run]

theorem alone_snoc (s : IoSt) (as : List Client.Step) (a : Client.Step) :
    Spec.alone cfg s (as ++ [a]) = ((Spec.alone cfg s as).poll cfg a).1 := by
  simp [Spec.alone]

theorem own_snoc (i : Nat) (ops : List Op) (op : Op) :
    Spec.own i (ops ++ [op]) = (Spec.ownStep i (ops.foldl (Spec.ownStep i) (0, none)) op).2 := by
  simp [Spec.own]

/-- a run that goes on was going on before -/
theorem running_before {pre post : List Op} (h : (run cfg (pre ++ post)).running = true) :
    (run cfg pre).running = true := by
  rw [run, List.foldl_append] at h
  change (post.foldl (State.step cfg) (run cfg pre)).running = true at h
  generalize run cfg pre = s at h ⊢
  induction post generalizing s with
  | nil => exact h
  | cons op post ih =>
    have := ih _ h
    unfold State.step at this
    split at this
    · assumption
    · exact this

/-- induction from the end -/
theorem list_snoc_induction {α : Type} {motive : List α → Prop} (nil : motive [])
    (snoc : ∀ l a, motive l → motive (l ++ [a])) (l : List α) : motive l := by
  have : ∀ (l acc : List α), motive acc → motive (acc ++ l) := by
    intro l
    induction l with
    | nil => intro acc h; simpa using h
    | cons a l ih =>
      intro acc h
      have := ih (acc ++ [a]) (snoc acc a h)
      simpa using this
  simpa using this l [] nil

/-- the connections of a server are those of the clients -/
def Served (cfg : Config) (ops : List Op) (s : State) : Prop :=
  ∀ i, (ops.foldl (Spec.ownStep i) (0, none)).1 = s.conns.length ∧
    s.conns[i]? = (Spec.own i ops).map (fun x => Spec.alone cfg x.1 x.2)

theorem served_step {ops : List Op} (hb : (run cfg ops).running = true)
    (h : Served cfg ops (run cfg ops)) (op : Op) (hop : op ≠ .acceptPanics) :
    Served cfg (ops ++ [op]) (run cfg (ops ++ [op])) := by
  intro i
  obtain ⟨h1, h2⟩ := h i
  rw [run_snoc]
  rw [own_snoc, List.foldl_append, List.foldl_cons, List.foldl_nil]
  rw [Spec.own] at h2
  generalize ops.foldl (Spec.ownStep i) (0, none) = x at h1 h2 ⊢
  unfold State.step
  rw [if_pos hb]
  cases op with
  | accept s =>
    simp only [Spec.ownStep]
    refine ⟨by simp [h1], ?_⟩
    rw [h1]
    by_cases hi : (run cfg ops).conns.length = i
    · subst hi
      simp [Spec.alone]
    · rw [if_neg hi, ← h2]
      by_cases hlt : i < (run cfg ops).conns.length
      · rw [List.getElem?_append_left hlt]
      · rw [List.getElem?_eq_none (by simp; omega), List.getElem?_eq_none (by omega)]
  | acceptPanics => exact absurd rfl hop
  | poll j a =>
    simp only [Spec.ownStep]
    cases hc : (run cfg ops).conns[j]? with
    | none =>
      refine ⟨h1, ?_⟩
      by_cases hj : j = i
      · subst hj
        rw [if_pos rfl, hc]
        rw [hc] at h2
        have : x.2 = none := by
          cases hx : x.2 with
          | none => rfl
          | some y => rw [hx] at h2; cases h2
        rw [this]; rfl
      · rw [if_neg hj]; exact h2
    | some c =>
      simp only
      refine ⟨by rw [List.length_set]; exact h1, ?_⟩
      by_cases hj : j = i
      · subst hj
        rw [if_pos rfl, List.getElem?_set_self (List.getElem?_eq_some_iff.mp hc).1]
        rw [hc] at h2
        cases hx : x.2 with
        | none => rw [hx] at h2; cases h2
        | some y =>
          rw [hx] at h2
          simp only [Option.map_some, Option.some.injEq] at h2 ⊢
          rw [alone_snoc, h2]
      · rw [if_neg hj, List.getElem?_set_ne hj]
        exact h2

/-- the clients of a running server -/
theorem run_conns (ops : List Op) : (run cfg ops).running = true → Served cfg ops (run cfg ops) := by
  induction ops using list_snoc_induction with
  | nil =>
    intro _ i
    simp [run, Spec.own]
  | snoc ops op ih =>
    intro hr
    have hb := running_before hr
    refine served_step hb (ih hb) op ?_
    rintro rfl
    rw [run_snoc] at hr
    unfold State.step at hr
    rw [if_pos hb] at hr
    cases hr

/-- the clients of any server: those of the time when it stopped -/
theorem run_prefix (ops : List Op) : ∃ pre post, ops = pre ++ post ∧ Served cfg pre (run cfg ops) ∧
    ((run cfg ops).running = true → post = []) := by
  induction ops using list_snoc_induction with
  | nil => exact ⟨[], [], rfl, run_conns [] rfl, fun _ => rfl⟩
  | snoc ops op ih =>
    cases hb : (run cfg ops).running with
    | false =>
      obtain ⟨pre, post, h1, h2, h3⟩ := ih
      refine ⟨pre, post ++ [op], by rw [h1]; simp, ?_, fun hr => ?_⟩
      · rw [run_snoc]
        unfold State.step
        rw [hb]
        exact h2
      · rw [running_before hr] at hb; cases hb
    | true =>
      have h := run_conns ops hb
      by_cases hop : op = .acceptPanics
      · subst hop
        refine ⟨ops, [.acceptPanics], rfl, ?_, fun hr => ?_⟩
        · rw [run_snoc]
          unfold State.step
          rw [if_pos hb]
          exact h
        · rw [run_snoc] at hr
          unfold State.step at hr
          rw [if_pos hb] at hr
          cases hr
      · exact ⟨ops ++ [op], [], by simp, served_step hb h op hop, fun _ => rfl⟩

theorem own_count {i : Nat} (ops : List Op) {x : IoSt × List Client.Step}
    (h : Spec.own i ops = some x) : i < (ops.foldl (Spec.ownStep i) (0, none)).1 := by
  induction ops using list_snoc_induction generalizing x with
  | nil => cases h
  | snoc ops op ih =>
    rw [own_snoc] at h
    rw [List.foldl_append, List.foldl_cons, List.foldl_nil]
    rw [Spec.own] at ih
    generalize ops.foldl (Spec.ownStep i) (0, none) = y at h ih ⊢
    cases op with
    | accept s =>
      simp only [Spec.ownStep] at h ⊢
      split at h
      · omega
      · have := ih h; omega
    | acceptPanics => exact ih h
    | poll j a =>
      simp only [Spec.ownStep] at h ⊢
      split at h
      · cases hy : y.2 with
        | none => rw [hy] at h; cases h
        | some z => exact ih hy
      · exact ih h

/-- a client keeps its connection -/
theorem own_append {i : Nat} {pre : List Op} (post : List Op) {s : IoSt} {as : List Client.Step}
    (h : Spec.own i pre = some (s, as)) : ∃ more, Spec.own i (pre ++ post) = some (s, as ++ more) := by
  induction post using list_snoc_induction with
  | nil => exact ⟨[], by simpa using h⟩
  | snoc post op ih =>
    obtain ⟨more, ih⟩ := ih
    rw [← List.append_assoc, own_snoc]
    have hc := own_count _ ih
    rw [Spec.own] at ih
    generalize (pre ++ post).foldl (Spec.ownStep i) (0, none) = y at ih hc ⊢
    cases op with
    | accept s =>
      simp only [Spec.ownStep]
      rw [if_neg (by omega)]
      exact ⟨more, ih⟩
    | acceptPanics => exact ⟨more, ih⟩
    | poll j a =>
      simp only [Spec.ownStep]
      split
      · rw [ih]; exact ⟨more ++ [a], by simp⟩
      · exact ⟨more, ih⟩

/-- C51 as stated: each client is as if it were alone, whatever the others do, and the server keeps
running. (The handler that accepts connections is assumed not to panic.) -/
def C51_statement : Prop :=
  ∀ cfg ops, .acceptPanics ∉ ops →
    (run cfg ops).running = true ∧
    ∀ i, (run cfg ops).conns[i]? = (Spec.own i ops).map (fun x => Spec.alone cfg x.1 x.2)

/-- C51, the part that holds: as long as the server is running, each client is as if it were alone: what
has been read and written, what has been done for it, and what the server knows about it depend on its own
connection and steps only.

Missing: that the server keeps running, which is false (`C51_refuted`). -/
theorem C51_isolated_partial (cfg : Config) (ops : List Op) (h : (run cfg ops).running = true) (i : Nat) :
    (run cfg ops).conns[i]? = (Spec.own i ops).map (fun x => Spec.alone cfg x.1 x.2) :=
  (run_conns ops h i).2

/-- In particular other clients and other behaviour of them make no difference. -/
theorem C51_others_partial (cfg : Config) (ops ops' : List Op) (h : (run cfg ops).running = true)
    (h' : (run cfg ops').running = true) (i j : Nat) (ho : Spec.own i ops = Spec.own j ops') :
    (run cfg ops).conns[i]? = (run cfg ops').conns[j]? := by
  rw [C51_isolated_partial cfg ops h, C51_isolated_partial cfg ops' h', ho]

/-- The server stops only if a client that would panic alone does so. -/
theorem C51_stopped (cfg : Config) (ops : List Op) (h : (run cfg ops).running = false) :
    .acceptPanics ∈ ops ∨
    ∃ pre post i a s as, ops = pre ++ .poll i a :: post ∧ (run cfg pre).running = true ∧
      Spec.own i (pre ++ [.poll i a]) = some (s, as) ∧ Spec.AlonePanics cfg s as := by
  induction ops using list_snoc_induction with
  | nil => cases h
  | snoc ops op ih =>
    cases hr : (run cfg ops).running with
    | false =>
      rcases ih hr with h1 | ⟨pre, post, i, a, s, as, h1, h2, h3⟩
      · exact .inl (List.mem_append_left _ h1)
      · exact .inr ⟨pre, post ++ [op], i, a, s, as, by rw [h1]; simp, h2, h3⟩
    | true =>
      rw [run_snoc] at h
      unfold State.step at h
      rw [if_pos hr] at h
      cases op with
      | accept s => rw [hr] at h; cases h
      | acceptPanics => exact .inl (by simp)
      | poll i a =>
        refine .inr ⟨ops, [], i, a, ?_⟩
        have hc := (run_conns ops hr i).2
        simp only at h
        cases hx : (run cfg ops).conns[i]? with
        | none => rw [hx] at h; rw [hr] at h; cases h
        | some c =>
          rw [hx] at h hc
          simp only at h
          cases ho : Spec.own i ops with
          | none => rw [ho] at hc; cases hc
          | some y =>
            rw [ho] at hc
            simp only [Option.map_some, Option.some.injEq] at hc
            refine ⟨y.1, y.2 ++ [a], rfl, hr, ?_, y.2, a, rfl, ?_⟩
            · rw [own_snoc]
              rw [Spec.own] at ho
              simp only [Spec.ownStep, if_true, ho, Option.map_some]
            · rw [← hc]
              simpa using h

/-- So it keeps running if no client would panic alone. -/
theorem C51_survives_partial (cfg : Config) (ops : List Op) (ha : .acceptPanics ∉ ops)
    (h : ∀ pre post i s as, ops = pre ++ post → Spec.own i pre = some (s, as) →
      ¬ Spec.AlonePanics cfg s as) : (run cfg ops).running = true := by
  cases hr : (run cfg ops).running with
  | true => rfl
  | false =>
    rcases C51_stopped cfg ops hr with h1 | ⟨pre, post, i, a, s, as, h1, -, h3, h4⟩
    · exact absurd h1 ha
    · exact absurd h4 (h (pre ++ [.poll i a]) post i s as (by rw [h1]; simp) h3)

/-! ### the steps of a client -/

/-- What a client is after its steps, in terms of `authenticate_new_client` and of the loop of
`Client::start`: the steps are those of authentication and then a schedule of the session. -/
inductive Spec.Alone (cfg : Config) (s : IoSt) : List Client.Step → Conn → Prop
  /-- the authentication has not come to an end -/
  | busy {as phase io} : (∀ user st, phase ≠ .session user st) → phase ≠ .ended →
    Alone cfg s as ⟨phase, io⟩
  /-- the client was not authenticated -/
  | refused {as io r} : authenticateNewClient cfg.K cfg.H cfg.ident s = (r, io) → (∀ a, r ≠ ok a) →
    Alone cfg s as ⟨.ended, io⟩
  /-- the session goes on -/
  | session {pre sched a s1 st io} :
    authenticateNewClient cfg.K cfg.H cfg.ident s = (ok a, s1) →
    Client.steps cfg.K cfg.C a.user (Client.start a) sched s1 = (ok (.inl st), io) →
    Alone cfg s (pre ++ sched) ⟨.session a.user st, io⟩
  /-- the session has ended -/
  | ended {pre sched post a s1 io r} :
    authenticateNewClient cfg.K cfg.H cfg.ident s = (ok a, s1) →
    Client.steps cfg.K cfg.C a.user (Client.start a) sched s1 = (r, io) →
    (∀ st, r ≠ ok (.inl st)) → Alone cfg s (pre ++ sched ++ post) ⟨.ended, io⟩

/-- the state of the authentication -/
def AuthInv (cfg : Config) (s : IoSt) (c : Conn) : Prop :=
  match c.phase with
  | .new => c.io = s
  | .service cl => Host.handleNewClient cfg.K cfg.ident s = (ok cl, c.io)
  | .auth sid st => Spec.Fits sid ∧ st.Ok ∧
    authenticateNewClient cfg.K cfg.H cfg.ident s = loop cfg.K cfg.H sid st c.io
  | _ => True

theorem step_service (a : Client.Step) (cl : HostClient) :
    Phase.step cfg a (.service cl) = (do
      let st ← Server.service cfg.K (startSt cl)
      pure (.auth cl.sessionIdentifier st)) := rfl

theorem auth_service {s io : IoSt} {cl : HostClient}
    (h : Host.handleNewClient cfg.K cfg.ident s = (ok cl, io)) :
    authenticateNewClient cfg.K cfg.H cfg.ident s =
      (Server.service cfg.K (startSt cl) >>= fun st => loop cfg.K cfg.H cl.sessionIdentifier st) io := by
  rw [authenticateNewClient, M.bind_ok (a := cl) (s' := io) (by rw [M.mapErr_run, h]; rfl)]
  rfl

theorem alone_service (hid : Spec.Fits cfg.ident) {s io : IoSt} {cl : HostClient}
    (h2 : Host.handleNewClient cfg.K cfg.ident s = (ok cl, io)) {as : List Client.Step}
    {a : Client.Step} : Spec.Alone cfg s as (Conn.poll cfg a ⟨.service cl, io⟩).1 ∧
      AuthInv cfg s (Conn.poll cfg a ⟨.service cl, io⟩).1 := by
  have hst := startSt_ok cl
  have hauth := auth_service h2
  rw [M.bind_run] at hauth
  unfold Conn.poll
  simp only [step_service, M.bind_run]
  generalize startSt cl = st0 at hauth hst
  have hs := service_ok cfg.K hst io
  rcases hx : Server.service cfg.K st0 io with ⟨r, io1⟩
  rw [hx] at hauth hs
  cases r with
  | ok st =>
    refine ⟨.busy (by simp) (by simp), ?_, ?_, hauth⟩
    · have := (handshake_session hid h2).2.2.1
      unfold Spec.Fits
      rw [this]
      decide
    · obtain ⟨_, _, _, h, _⟩ := hs
      exact h
  | err e => exact ⟨.refused hauth (by simp), trivial⟩
  | panic => exact ⟨.refused hauth (by simp), trivial⟩

theorem alone_inv (hid : Spec.Fits cfg.ident) (s : IoSt) (as : List Client.Step) :
    Spec.Alone cfg s as (Spec.alone cfg s as) ∧ AuthInv cfg s (Spec.alone cfg s as) := by
  induction as using list_snoc_induction with
  | nil => exact ⟨.busy (by simp) (by simp), rfl⟩
  | snoc as a ih =>
    rw [alone_snoc]
    obtain ⟨h1, h2⟩ := ih
    generalize Spec.alone cfg s as = c at h1 h2
    obtain ⟨phase, io⟩ := c
    cases phase with
    | new =>
      change io = s at h2
      subst h2
      unfold Conn.poll
      simp only [Phase.step, M.bind_run, M.mapErr_run]
      rcases hx : Host.handleNewClient cfg.K cfg.ident io with ⟨r, io1⟩
      cases r with
      | ok cl => exact ⟨.busy (by simp) (by simp), hx⟩
      | err e =>
        refine ⟨.refused (r := err ()) ?_ (by simp), trivial⟩
        rw [authenticateNewClient, M.bind_err (by rw [M.mapErr_run, hx]; rfl)]
      | panic =>
        refine ⟨.refused (r := R.panic) ?_ (by simp), trivial⟩
        rw [authenticateNewClient, M.bind_panic (by rw [M.mapErr_run, hx]; rfl)]
    | service cl =>
      replace h2 : Host.handleNewClient cfg.K cfg.ident s = (ok cl, io) := h2
      exact alone_service hid h2
    | auth sid st =>
      obtain ⟨h3, h4, h5⟩ := h2
      have hs := attempt_ok cfg.K cfg.H h3 h4 io
      rw [loop_eq cfg.K cfg.H h3 h4, M.bind_run] at h5
      unfold Conn.poll
      simp only [Phase.step, M.bind_run]
      rcases hx : attempt cfg.K cfg.H sid st io with ⟨r, io1⟩
      rw [hx] at h5 hs
      cases r with
      | ok x =>
        cases x with
        | inl st' =>
          refine ⟨.busy (by simp) (by simp), h3, ?_, h5⟩
          obtain ⟨_, _, _, h, _⟩ := hs
          exact h
        | inr c =>
          refine ⟨?_, trivial⟩
          have := Spec.Alone.session (cfg := cfg) (pre := as ++ [a]) (sched := []) h5 rfl
          rwa [List.append_nil] at this
      | err e => exact ⟨.refused h5 (by simp), trivial⟩
      | panic => exact ⟨.refused h5 (by simp), trivial⟩
    | session user st =>
      cases h1 with
      | busy h => exact absurd rfl (h _ _)
      | session g1 g2 =>
        rename_i pre sched c s1
        have g3 := steps_snoc (x := a) g2
        unfold Conn.poll
        simp only [Phase.step, M.bind_run, M.mapErr_run]
        rcases hx : Client.step cfg.K cfg.C c.user st a io with ⟨r, io1⟩
        rw [hx] at g3
        cases r with
        | ok x =>
          cases x with
          | inl st' =>
            have := Spec.Alone.session (cfg := cfg) (pre := pre) g1 g3
            rw [← List.append_assoc] at this
            exact ⟨this, trivial⟩
          | inr u =>
            have := Spec.Alone.ended (cfg := cfg) (pre := pre) (post := []) g1 g3 (by simp)
            rw [List.append_nil, ← List.append_assoc] at this
            exact ⟨this, trivial⟩
        | err e =>
          have := Spec.Alone.ended (cfg := cfg) (pre := pre) (post := []) g1 g3 (by simp)
          rw [List.append_nil, ← List.append_assoc] at this
          exact ⟨this, trivial⟩
        | panic =>
          have := Spec.Alone.ended (cfg := cfg) (pre := pre) (post := []) g1 g3 (by simp)
          rw [List.append_nil, ← List.append_assoc] at this
          exact ⟨this, trivial⟩
    | ended =>
      refine ⟨?_, trivial⟩
      change Spec.Alone cfg s (as ++ [a]) ⟨.ended, io⟩
      cases h1 with
      | busy _ h => exact absurd rfl h
      | refused g1 g2 => exact .refused g1 g2
      | ended g1 g2 g3 =>
        rename_i pre sched post _ _ _
        have := Spec.Alone.ended (cfg := cfg) (pre := pre) (post := post ++ [a]) g1 g2 g3
        rw [← List.append_assoc] at this
        exact this

/-- C51 for each client of a running server: everything that is proved of `authenticate_new_client` and of
the sessions of a client (C21-C50, C59-C62) holds for it, whatever the others do. -/
theorem C51_each_partial (cfg : Config) (hid : Spec.Fits cfg.ident) (ops : List Op)
    (h : (run cfg ops).running = true) {i : Nat} {c : Conn} (hc : (run cfg ops).conns[i]? = some c) :
    ∃ s as, Spec.own i ops = some (s, as) ∧ Spec.Alone cfg s as c := by
  rw [C51_isolated_partial cfg ops h] at hc
  cases ho : Spec.own i ops with
  | none => rw [ho] at hc; cases hc
  | some x =>
    rw [ho] at hc
    cases hc
    exact ⟨x.1, x.2, rfl, (alone_inv hid x.1 x.2).1⟩

/-- whether the authentication goes on -/
def busy : Phase → Bool
  | .session .. => false
  | .ended => false
  | _ => true

/-- a panic before the end of the authentication is one of `authenticate_new_client` -/
theorem panic_busy {s : IoSt} {b : Client.Step} {c : Conn} (h2 : AuthInv cfg s c)
    (hb : busy c.phase = true) (hp : (c.poll cfg b).2 = true) :
    (authenticateNewClient cfg.K cfg.H cfg.ident s).1 = R.panic := by
  obtain ⟨phase, io⟩ := c
  cases phase with
  | new =>
    change io = s at h2
    subst h2
    unfold Conn.poll at hp
    simp only [Phase.step, M.bind_run, M.mapErr_run] at hp
    rcases hx : Host.handleNewClient cfg.K cfg.ident io with ⟨r, io1⟩
    rw [hx] at hp
    cases r with
    | ok cl => cases hp
    | err e => cases hp
    | panic =>
      rw [authenticateNewClient, M.bind_panic (by rw [M.mapErr_run, hx]; rfl)]
  | service cl =>
    replace h2 : Host.handleNewClient cfg.K cfg.ident s = (ok cl, io) := h2
    have hauth := auth_service h2
    rw [M.bind_run] at hauth
    unfold Conn.poll at hp
    simp only [step_service, M.bind_run] at hp
    generalize startSt cl = st0 at hauth hp
    rcases hx : Server.service cfg.K st0 io with ⟨r, io1⟩
    rw [hx] at hauth hp
    cases r with
    | ok st => cases hp
    | err e => cases hp
    | panic => exact (by rw [hauth])
  | auth sid st =>
    obtain ⟨h3, h4, h5⟩ := h2
    rw [loop_eq cfg.K cfg.H h3 h4, M.bind_run] at h5
    unfold Conn.poll at hp
    simp only [Phase.step, M.bind_run] at hp
    rcases hx : attempt cfg.K cfg.H sid st io with ⟨r, io1⟩
    rw [hx] at h5 hp
    cases r with
    | ok x =>
      cases x with
      | inl st' => cases hp
      | inr c => cases hp
    | err e => cases hp
    | panic => exact (by rw [h5])
  | session user st => cases hb
  | ended => cases hb

/-- A client would panic alone only if `authenticate_new_client` panics, or the loop of `Client::start`
does, for some schedule. -/
theorem C51_panics (cfg : Config) (hid : Spec.Fits cfg.ident) (s : IoSt) (as : List Client.Step)
    (h : Spec.AlonePanics cfg s as) :
    (authenticateNewClient cfg.K cfg.H cfg.ident s).1 = R.panic ∨
    ∃ pre sched a s1, as = pre ++ sched ∧
      authenticateNewClient cfg.K cfg.H cfg.ident s = (ok a, s1) ∧
      (Client.steps cfg.K cfg.C a.user (Client.start a) sched s1).1 = R.panic := by
  obtain ⟨as, b, rfl, hp⟩ := h
  obtain ⟨h1, h2⟩ := alone_inv hid s as
  generalize Spec.alone cfg s as = c at h1 h2 hp
  obtain ⟨phase, io⟩ := c
  cases phase with
  | new => exact .inl (panic_busy h2 rfl hp)
  | service cl => exact .inl (panic_busy h2 rfl hp)
  | auth sid st => exact .inl (panic_busy h2 rfl hp)
  | session user st =>
    cases h1 with
    | busy h => exact absurd rfl (h _ _)
    | session g1 g2 =>
      rename_i pre sched c s1
      have g3 := steps_snoc (x := b) g2
      unfold Conn.poll at hp
      simp only [Phase.step, M.bind_run, M.mapErr_run] at hp
      rcases hx : Client.step cfg.K cfg.C c.user st b io with ⟨r, io1⟩
      rw [hx] at g3 hp
      cases r with
      | ok x =>
        cases x with
        | inl st' => cases hp
        | inr u => cases hp
      | err e => cases hp
      | panic => exact .inr ⟨pre, sched ++ [b], c, s1, by rw [List.append_assoc], g1, by rw [g3]⟩
  | ended => cases hp

/-- So the server stops only if `authenticate_new_client` or the loop of `Client::start` panics for one of
the clients; an error of a client does not stop it. -/
theorem C51_stopped_by (cfg : Config) (hid : Spec.Fits cfg.ident) (ops : List Op)
    (h : (run cfg ops).running = false) :
    .acceptPanics ∈ ops ∨
    ∃ i s as, Spec.own i ops = some (s, as) ∧
      ((authenticateNewClient cfg.K cfg.H cfg.ident s).1 = R.panic ∨
      ∃ pre sched post a s1, as = pre ++ sched ++ post ∧
        authenticateNewClient cfg.K cfg.H cfg.ident s = (ok a, s1) ∧
        (Client.steps cfg.K cfg.C a.user (Client.start a) sched s1).1 = R.panic) := by
  rcases C51_stopped cfg ops h with h1 | ⟨pre, post, i, a, s, as, rfl, -, h3, h4⟩
  · exact .inl h1
  · rw [show pre ++ .poll i a :: post = (pre ++ [.poll i a]) ++ post by simp]
    obtain ⟨as', h5⟩ := own_append post h3
    refine .inr ⟨i, s, as ++ as', h5, ?_⟩
    rcases C51_panics cfg hid s as h4 with h6 | ⟨pre', sched, c, s1, h6, h7, h8⟩
    · exact .inl h6
    · exact .inr ⟨pre', sched, as', c, s1, by rw [h6], h7, h8⟩

/-- how far an authentication is -/
def AuthLeft (s : IoSt) (n : Nat) (c : Conn) : Prop :=
  match c.phase with
  | .new => n = 0 ∧ c.io.inp.length ≤ s.inp.length
  | .service _ => n = 1 ∧ c.io.inp.length ≤ s.inp.length
  | .auth sid st => Spec.Fits sid ∧ st.Ok ∧ c.io.inp.length + n ≤ s.inp.length + 2
  | _ => True

theorem left_service (hid : Spec.Fits cfg.ident) {s s0 io : IoSt} {cl : HostClient}
    (h0 : Host.handleNewClient cfg.K cfg.ident s0 = (ok cl, io)) (h : io.inp.length ≤ s.inp.length)
    {a : Client.Step} :
    ∀ c, (Conn.poll cfg a ⟨.service cl, io⟩).1 = c → AuthLeft s 2 c := by
  rintro c rfl
  have hst := startSt_ok cl
  unfold Conn.poll
  simp only [step_service, M.bind_run]
  generalize startSt cl = st0 at hst
  have hs := service_ok cfg.K hst io
  rcases hx : Server.service cfg.K st0 io with ⟨r, io1⟩
  rw [hx] at hs
  cases r with
  | ok st =>
    obtain ⟨_, _, _, h1, h2, _⟩ := hs
    have := h2.1
    refine ⟨?_, h1, show io1.inp.length + 2 ≤ s.inp.length + 2 by omega⟩
    have := (handshake_session hid h0).2.2.1
    unfold Spec.Fits
    rw [this]
    decide
  | err e => trivial
  | panic => trivial

theorem alone_left (hid : Spec.Fits cfg.ident) (s : IoSt) (as : List Client.Step) :
    AuthLeft s as.length (Spec.alone cfg s as) := by
  induction as using list_snoc_induction with
  | nil => exact ⟨rfl, Nat.le_refl _⟩
  | snoc as a ih =>
    have hinv := (alone_inv hid s as).2
    rw [alone_snoc, List.length_append, List.length_singleton]
    generalize Spec.alone cfg s as = c at ih hinv
    obtain ⟨phase, io⟩ := c
    cases phase with
    | new =>
      obtain ⟨h1, h2⟩ := ih
      unfold Conn.poll
      simp only [Phase.step, M.bind_run, M.mapErr_run]
      rcases hx : Host.handleNewClient cfg.K cfg.ident io with ⟨r, io1⟩
      cases r with
      | ok cl =>
        refine ⟨by rw [h1], Nat.le_trans ?_ h2⟩
        exact (handshake_session hid hx).2.2.2.1
      | err e => trivial
      | panic => trivial
    | service cl =>
      have ih' : as.length = 1 ∧ io.inp.length ≤ s.inp.length := ih
      replace hinv : Host.handleNewClient cfg.K cfg.ident s = (ok cl, io) := hinv
      have hn : as.length + 1 = 2 := congrArg (· + 1) ih'.1
      generalize as.length + 1 = n at hn ⊢
      subst hn
      have hleft : ∀ c, (Conn.poll cfg a ⟨.service cl, io⟩).1 = c → AuthLeft s 2 c :=
        left_service hid hinv ih'.2
      generalize (Conn.poll cfg a ⟨.service cl, io⟩).1 = c at hleft ⊢
      exact hleft c rfl
    | auth sid st =>
      obtain ⟨h1, h2, h3⟩ := ih
      have hs := attempt_ok cfg.K cfg.H h1 h2 io
      unfold Conn.poll
      simp only [Phase.step, M.bind_run]
      rcases hx : attempt cfg.K cfg.H sid st io with ⟨r, io1⟩
      rw [hx] at hs
      cases r with
      | ok x =>
        cases x with
        | inl st' =>
          obtain ⟨_, _, _, h4, h5, _⟩ := hs
          have := h5.1
          simp only at h3
          exact ⟨h1, h4, show io1.inp.length + (as.length + 1) ≤ s.inp.length + 2 by omega⟩
        | inr c => trivial
      | err e => trivial
      | panic => trivial
    | session user st =>
      unfold Conn.poll
      simp only [Phase.step, M.bind_run, M.mapErr_run]
      rcases Client.step cfg.K cfg.C user st a io with ⟨r, io1⟩
      cases r with
      | ok x => cases x <;> trivial
      | err e => trivial
      | panic => trivial
    | ended => trivial

/-- An authentication takes at most three steps more than the client sends bytes. -/
theorem C51_authenticated (cfg : Config) (hid : Spec.Fits cfg.ident) (s : IoSt)
    (as : List Client.Step) (h : s.inp.length + 3 ≤ as.length) :
    (∃ user st, (Spec.alone cfg s as).phase = .session user st) ∨
      (Spec.alone cfg s as).phase = .ended := by
  have := alone_left hid s as
  unfold AuthLeft at this
  cases hp : (Spec.alone cfg s as).phase with
  | new => rw [hp] at this; have := this.1; omega
  | service c => rw [hp] at this; have := this.1; omega
  | auth sid st => rw [hp] at this; have := this.2.2; omega
  | session user st => exact .inl ⟨user, st, rfl⟩
  | ended => exact .inr rfl

/-! ### one client stops the server -/

/-- If a client would panic alone, it stops the server, for all clients. -/
theorem C51_stops (cfg : Config) (ops : List Op) (i : Nat) (a : Client.Step) (s : IoSt)
    (as : List Client.Step) (hr : (run cfg ops).running = true) (ho : Spec.own i ops = some (s, as))
    (hp : Spec.AlonePanics cfg s (as ++ [a])) (post : List Op) :
    (run cfg (ops ++ .poll i a :: post)).running = false := by
  have h1 : (run cfg (ops ++ [.poll i a])).running = false := by
    rw [run_snoc]
    unfold State.step
    rw [if_pos hr]
    simp only [C51_isolated_partial cfg ops hr i, ho, Option.map_some]
    obtain ⟨as0, b, h1, h2⟩ := hp
    obtain ⟨h3, h4⟩ := List.append_inj' h1 rfl
    cases h3
    cases h4
    rw [h2]
    rfl
  cases h2 : (run cfg (ops ++ .poll i a :: post)).running with
  | false => rfl
  | true =>
    rw [show ops ++ .poll i a :: post = (ops ++ [.poll i a]) ++ post by simp] at h2
    rw [running_before h2] at h1
    cases h1

/-- For example each client that disconnects after the handshake. -/
theorem C51_crash (cfg : Config) (ops : List Op) (s s1 : IoSt) (c : HostClient) (a b : Client.Step)
    (hr : (run cfg ops).running = true)
    (hh : Host.handleNewClient cfg.K cfg.ident s = (ok c, s1)) (hl : s1.inp.length < 20)
    (post : List Op) :
    (run cfg (ops ++ .accept s :: .poll (run cfg ops).conns.length a ::
      .poll (run cfg ops).conns.length b :: post)).running = false := by
  have hown := (run_conns ops hr (run cfg ops).conns.length).1
  have r1 : run cfg (ops ++ [.accept s]) =
      { run cfg ops with conns := (run cfg ops).conns ++ [⟨.new, s⟩] } := by
    rw [run_snoc]
    unfold State.step
    rw [if_pos hr]
  have p1 : Conn.poll cfg a ⟨.new, s⟩ = (⟨.service c, s1⟩, false) := by
    unfold Conn.poll
    simp only [Phase.step, M.bind_run, M.mapErr_run, hh]
    rfl
  obtain ⟨s2, p2⟩ : ∃ s2, Conn.poll cfg b ⟨.service c, s1⟩ = (⟨.ended, s2⟩, true) := by
    obtain ⟨s2, h2⟩ := service_disconnect cfg.K s1 c hl
    refine ⟨s2, ?_⟩
    unfold Conn.poll
    simp only [step_service, M.bind_run, h2]
  have r2 : run cfg (ops ++ [.accept s, .poll (run cfg ops).conns.length a]) =
      ⟨(run cfg ops).conns ++ [⟨.service c, s1⟩], true⟩ := by
    rw [show ops ++ [.accept s, .poll (run cfg ops).conns.length a] =
      (ops ++ [.accept s]) ++ [.poll (run cfg ops).conns.length a] by simp, run_snoc, r1]
    unfold State.step
    rw [if_pos hr]
    simp [p1]
  have o2 : Spec.own (run cfg ops).conns.length
      (ops ++ [.accept s, .poll (run cfg ops).conns.length a]) = some (s, [a]) := by
    rw [Spec.own, List.foldl_append]
    simp only [List.foldl_cons, List.foldl_nil, Spec.ownStep, hown, if_true, Option.map_some,
      List.nil_append]
  have := C51_stops cfg (ops ++ [.accept s, .poll (run cfg ops).conns.length a])
    (run cfg ops).conns.length b s [a] (by rw [r2]) o2
    ⟨[a], b, rfl, by rw [Spec.alone, List.foldl_cons, List.foldl_nil, p1, p2]⟩ post
  rw [List.append_assoc] at this
  exact this

/-- the configuration of the examples -/
def someConfig : Config :=
  { K := .flat, H := someHandlers, ident := b! "SSH-2.0-nora",
    C := { spawn := fun _ _ _ => ok ⟨true, true, true⟩, write := fun _ _ d => ok d.length } }

/-- C51 is false: one client stops the server. -/
theorem C51_refuted : ¬ C51_statement := by
  intro h
  obtain ⟨c, s1, h1, h2, h3, h4⟩ := flat_session [] []
  have hr := (h someConfig (.accept (clientState [] []) :: .poll 0 .message :: .poll 0 .message :: [])
    (by simp)).1
  have := C51_crash someConfig [] (clientState [] []) s1 c .message .message rfl h1
    (by rw [h4]; decide) []
  exact Bool.false_ne_true (this.symm.trans hr)

-- two clients of a running server
example : ∃ c s1, Host.handleNewClient .flat (b! "SSH-2.0-nora") (clientState [] []) = (ok c, s1) ∧
    run someConfig [.accept (clientState [] []), .accept (clientState [] []), .poll 1 .message] =
      ⟨[⟨.new, clientState [] []⟩, ⟨.service c, s1⟩], true⟩ ∧
    Spec.own 1 [.accept (clientState [] []), .accept (clientState [] []), .poll 1 .message] =
      some (clientState [] [], [.message]) := by
  obtain ⟨c, s1, h1, h2, h3, h4⟩ := flat_session [] []
  have p1 : Conn.poll someConfig .message ⟨.new, clientState [] []⟩ = (⟨.service c, s1⟩, false) := by
    unfold Conn.poll
    simp only [Phase.step, M.bind_run, M.mapErr_run]
    rw [show Host.handleNewClient someConfig.K someConfig.ident (clientState [] []) = (ok c, s1)
      from h1]
    rfl
  refine ⟨c, s1, h1, ?_, by simp [Spec.own, Spec.ownStep]⟩
  simp [run, State.step, p1]

end Nora
