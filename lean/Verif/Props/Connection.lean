import Verif.Props.HandshakeExact
import Verif.Props.AuthExact
import Verif.Props.ConnExact
import Verif.Props.Whole
import Verif.Props.WholeWitness
/-
C100: whole connections, exactly: what happens on a connection, for every stream of the client.
-/
namespace Nora
open R Server

/-! ### the specification -/

/-- The client that sends `inp` has been authenticated as `user`, with the events `t`; `l` is the log before.
Its packets are sealed with the key `k`, the next one has the number `n`, and `rest` is left of the stream. -/
inductive Spec.Entered (cfg : Config) (rng : Tape) (inp : Bytes) (l : List Event) (user : Nat) :
    List Event → Spec.Keys → Nat → Bytes → Prop
  | mk {a sid k k' t w rest} : Spec.Shakes inp (.session a w) →
    Spec.Agreed cfg.K cfg.ident rng a sid k k' →
    Spec.Session cfg.H sid False False l (ok user) t →
    Spec.Arrive cfg.K k 3 (Spec.payloads t) w rest →
    Entered cfg rng inp l user t k (3 + (Spec.payloads t).length) rest

/-- The connection of a client that sends `inp` is in the session of `user`, after the events `t`. -/
inductive Spec.Open (cfg : Config) (rng : Tape) (inp : Bytes) (l : List Event) (user : Nat) :
    List Event → Prop
  | mk {t0 t1 k n w rest} : Spec.Entered cfg rng inp l user t0 k n w →
    Spec.Arrive cfg.K k n (Spec.payloads t1) w rest →
    Spec.Trace cfg.C user (fun _ => False) (l ++ t0) t1 → Open cfg rng inp l user (t0 ++ t1)

/-- whether a result is a panic -/
def Spec.panics {ε α : Type} : R ε α → Bool
  | R.panic => true
  | _ => false

/-- The connection of a client that sends `inp` ends after the events `t`, and the server stops if
`stops`. -/
inductive Spec.Closed (cfg : Config) (rng : Tape) (inp : Bytes) (l : List Event) :
    Bool → List Event → Prop
  /-- the handshake fails -/
  | failed {w b} : Spec.Shakes inp (.fails w b) → Closed cfg rng inp l false []
  | panicked {b} : Spec.Shakes inp (.panics b) → Closed cfg rng inp l true []
  /-- the client is not authenticated -/
  | refused {a sid k k' w r t} : Spec.Shakes inp (.session a w) →
    Spec.Agreed cfg.K cfg.ident rng a sid k k' → (∀ user, r ≠ ok user) →
    Spec.Session cfg.H sid False False l r t → Spec.With cfg.K k w r t →
    Closed cfg rng inp l (Spec.panics r) t
  /-- the session ends: `ps` are the packets of the client, and then follows something that is not one, which
  is refused with the error `e` -/
  | left {user t0 t1 b k n w ps e rest rest'} {r : R Client.Stop (Client.St ⊕ Unit)} :
    Spec.Entered cfg rng inp l user t0 k n w →
    Spec.Arrive cfg.K k n ps w rest → Spec.Refused cfg.K k (n + ps.length) 35000 rest e rest' →
    Spec.Trace cfg.C user (fun _ => False) (l ++ t0) t1 → Spec.payloads (t1 ++ b) <+: ps →
    (∀ st, r ≠ ok (.inl st)) →
    Spec.Ending cfg.C user (fun _ => False) False False (Spec.payloads t1 = ps ∧ r = err (.recv e)) True
      (l ++ t0) t1 r b →
    Closed cfg rng inp l (Spec.panics r) (t0 ++ (t1 ++ b))

/-! ### authentication -/

section
variable {cfg : Config} {s s1 s2 : IoSt} {user : Nat} {a : Authenticated} {t : List Event}

theorem handshake_of (h : authenticateNewClient cfg.K cfg.H cfg.ident s = (ok a, s2)) :
    ∃ c s1, Host.handleNewClient cfg.K cfg.ident s = (ok c, s1) := by
  rw [authenticateNewClient, M.bind_run, M.mapErr_run] at h
  rcases hx : Host.handleNewClient cfg.K cfg.ident s with ⟨r, io⟩
  rw [hx] at h
  cases r with
  | ok c => exact ⟨c, io, rfl⟩
  | err e => cases h
  | panic => cases h

theorem Spec.Arrive.left_le {K : Crypto} {k : Spec.Keys} : ∀ {ps : List Bytes} {n : Nat} {w rest : Bytes},
    Spec.Arrive K k n ps w rest → ps.length + rest.length ≤ w.length := by
  intro ps
  induction ps with
  | nil => rintro n w rest rfl; simp
  | cons p ps ih =>
    rintro n w rest ⟨raw, w', _, _, h3, h4⟩
    have := congrArg List.length h3
    simp [Spec.sealed] at this
    have := ih h4
    simp only [List.length_cons]
    omega

/-- the session that a handshake has led to -/
theorem handshake_shakes {c : HostClient} (hid : Spec.Fits cfg.ident) (hw : s.wcap = none)
    (h : Host.handleNewClient cfg.K cfg.ident s = (ok c, s1)) :
    ∃ a, Spec.Shakes s.inp (.session a s1.inp) ∧
      Spec.Agreed cfg.K cfg.ident s.rng a c.sessionIdentifier (Spec.keysOf c.receiveCipher)
        (Spec.keysOf c.sendCipher) := by
  obtain ⟨x, sent, h1, -, h2⟩ := C99_outcome cfg.K cfg.ident s hid hw
  rw [h] at h2
  cases x with
  | fails w b => obtain ⟨⟨e, h2, -⟩, -⟩ := h2; cases h2
  | panics b => exact nomatch h2.1
  | session a rest =>
    obtain ⟨rfl, -, c', h2, h3, -⟩ := h2
    cases h2
    exact ⟨a, h1, h3⟩

/-- and the other way round -/
theorem shakes_handshake {a : Spec.Asked} {w sid : Bytes} {k k' : Spec.Keys} (hid : Spec.Fits cfg.ident)
    (hw : s.wcap = none) (h : Spec.Shakes s.inp (.session a w))
    (ha : Spec.Agreed cfg.K cfg.ident s.rng a sid k k') :
    ∃ c s1, Host.handleNewClient cfg.K cfg.ident s = (ok c, s1) ∧ c.sessionIdentifier = sid ∧
      Spec.keysOf c.receiveCipher = k ∧ Spec.keysOf c.sendCipher = k' ∧ s1.inp = w := by
  obtain ⟨c, hc⟩ := (C99_exact cfg.K cfg.ident s hid hw).2.2.mpr ⟨_, _, h⟩
  rcases hx : Host.handleNewClient cfg.K cfg.ident s with ⟨r, s1⟩
  rw [hx] at hc
  cases hc
  obtain ⟨a', h1, h2⟩ := handshake_shakes hid hw hx
  cases C99_one_outcome _ _ _ h h1
  obtain ⟨g1, g2, g3⟩ := ha.unique h2
  exact ⟨c, s1, rfl, g1.symm, g2.symm, g3.symm, rfl⟩

theorem Spec.Session.inv {H : Handlers} {sid : Bytes} {l t : List Event} {u : Nat}
    (h : Spec.Session H sid False False l (ok u) t) :
    ∃ p0 t1 t2, t = [.received p0, .sent Spec.acceptReply] ++ t1 ++ t2 ∧ Spec.ServiceRequested p0 ∧
      Spec.Rounds H sid (l ++ [.received p0, .sent Spec.acceptReply]) t1 ∧
      Spec.Accepted H sid (l ++ [.received p0, .sent Spec.acceptReply] ++ t1) u t2 := by
  cases h with
  | served h1 h2 h3 =>
    cases h3 with
    | accepted h3 => exact ⟨_, _, _, rfl, h1, h2, h3⟩

/-- a client that has entered is authenticated -/
theorem Spec.Entered.run {k : Spec.Keys} {n : Nat} {w : Bytes} (hid : Spec.Fits cfg.ident)
    (hw : s.wcap = none) (hlen : s.inp.length + 4 < 2 ^ 64)
    (h : Spec.Entered cfg s.rng s.inp s.log user t k n w) :
    ∃ a s2, authenticateNewClient cfg.K cfg.H cfg.ident s = (ok a, s2) ∧ a.user = user ∧
      s2.log = s.log ++ t ∧ s2.wcap = none ∧ s2.inp = w ∧ Spec.keysOf a.receive = k ∧
      a.receive.counter.toNat = n ∧ a.send.counter.toNat = n ∧
      n = 3 + (Spec.payloads t).length ∧ (Spec.payloads t).length + w.length ≤ s.inp.length := by
  cases h with
  | mk h1 h2 h3 h4 =>
    obtain ⟨c, s1, g1, rfl, rfl, -, rfl⟩ := shakes_handshake hid hw h1 h2
    obtain ⟨p0, t1, t2, rfl, f1, f2, f3⟩ := h3.inv
    obtain ⟨a, s2, k1, k2, k3, k4, k5, k6, k7, k8, k9⟩ :=
      C37_served cfg.K cfg.H cfg.ident s s1 c p0 w t1 t2 user hid g1 hw hlen f1 f2 f3 h4
    have hl := h4.left_le
    have hin := (handshake_session hid g1).2.2.2.1
    obtain ⟨p, a', e1, e2, _⟩ := f3.start
    have e : 5 + (Spec.payloads t1).length =
        3 + (Spec.payloads ([.received p0, .sent Spec.acceptReply] ++ t1 ++ t2)).length := by
      rw [payloads_append, e2, payloads_append, List.length_append, List.length_append]
      simp only [Spec.payloads, List.filterMap_cons, List.filterMap_nil, List.length_cons,
        List.length_nil]
      omega
    exact ⟨a, s2, k1, k2, by rw [k3]; simp, k9, k4, k5, by rw [k6, e], by rw [k8, e], rfl, by omega⟩

/-- a client that is authenticated has entered -/
theorem entered_of (hid : Spec.Fits cfg.ident) (hw : s.wcap = none) (hlen : s.inp.length + 4 < 2 ^ 64)
    (h : authenticateNewClient cfg.K cfg.H cfg.ident s = (ok a, s2)) :
    ∃ t0, s2.log = s.log ++ t0 ∧ Spec.Entered cfg s.rng s.inp s.log a.user t0 (Spec.keysOf a.receive)
      a.receive.counter.toNat s2.inp := by
  obtain ⟨c, s1, hc⟩ := handshake_of h
  obtain ⟨t0, h1, h2, w, h3, -⟩ := session_reads (H := cfg.H) hid hc hw hlen
  rw [h] at h1 h2
  obtain ⟨a, g1, g2⟩ := handshake_shakes hid hw hc
  have he := Spec.Entered.mk g1 g2 h2 h3
  refine ⟨t0, h1, ?_⟩
  obtain ⟨a', s2', f1, -, -, -, f2, f3, f4, -⟩ := Spec.Entered.run hid hw hlen he
  rw [h] at f1
  cases f1
  rw [f2, f3, f4]
  exact he

/-! ### the steps of a client alone -/

/-- where a client is at the end of its authentication -/
def doneConn (x : R Unit Authenticated × IoSt) : Conn × Bool :=
  match x with
  | (ok a, io) => (⟨.session a.user (Client.start a), io⟩, false)
  | (err (), io) => (⟨.ended, io⟩, false)
  | (R.panic, io) => (⟨.ended, io⟩, true)

theorem service_poll {io : IoSt} {cl : HostClient}
    (h2 : Host.handleNewClient cfg.K cfg.ident s = (ok cl, io)) (b : Client.Step) :
    ∀ x, Conn.poll cfg b ⟨.service cl, io⟩ = x → (busy x.1.phase = true ∧ x.2 = false) ∨
      x = doneConn (authenticateNewClient cfg.K cfg.H cfg.ident s) := by
  rintro x rfl
  rw [auth_service h2, M.bind_run]
  unfold Conn.poll
  simp only [step_service, M.bind_run]
  generalize startSt cl = st0
  rcases hx : Server.service cfg.K st0 io with ⟨r, io1⟩
  cases r with
  | ok st => exact .inl ⟨rfl, rfl⟩
  | err e => exact .inr rfl
  | panic => exact .inr rfl

/-- a step of the authentication -/
theorem auth_poll {c : Conn} (hinv : AuthInv cfg s c) (hb : busy c.phase = true) (b : Client.Step) :
    ∀ x, c.poll cfg b = x → (busy x.1.phase = true ∧ x.2 = false) ∨
      x = doneConn (authenticateNewClient cfg.K cfg.H cfg.ident s) := by
  rintro x rfl
  obtain ⟨phase, io⟩ := c
  cases phase with
  | session => cases hb
  | ended => cases hb
  | new =>
    change io = s at hinv
    subst hinv
    rw [authenticateNewClient, M.bind_run, M.mapErr_run]
    unfold Conn.poll
    simp only [Phase.step, M.bind_run, M.mapErr_run]
    rcases hx : Host.handleNewClient cfg.K cfg.ident io with ⟨r, io1⟩
    cases r with
    | ok cl => exact .inl ⟨rfl, rfl⟩
    | err e => exact .inr rfl
    | panic => exact .inr rfl
  | service cl =>
    replace hinv : Host.handleNewClient cfg.K cfg.ident s = (ok cl, io) := hinv
    have h : ∀ x, Conn.poll cfg b ⟨.service cl, io⟩ = x → _ := service_poll hinv b
    generalize Conn.poll cfg b ⟨.service cl, io⟩ = x at h ⊢
    exact h x rfl
  | auth sid st =>
    obtain ⟨h3, h4, h5⟩ := hinv
    rw [h5, loop_eq cfg.K cfg.H h3 h4, M.bind_run]
    unfold Conn.poll
    simp only [Phase.step, M.bind_run]
    rcases hx : attempt cfg.K cfg.H sid st io with ⟨r, io1⟩
    cases r with
    | ok x =>
      cases x with
      | inl st' => exact .inl ⟨rfl, rfl⟩
      | inr c => exact .inr rfl
    | err e => exact .inr rfl
    | panic => exact .inr rfl

/-- the authentication comes to an end -/
theorem auth_done (hid : Spec.Fits cfg.ident) (s : IoSt) :
    ∃ n, ∀ b, busy (Spec.alone cfg s (List.replicate n .message)).phase = true ∧
      (Spec.alone cfg s (List.replicate n .message)).poll cfg b =
        doneConn (authenticateNewClient cfg.K cfg.H cfg.ident s) := by
  have key : ∀ m, busy (Spec.alone cfg s (List.replicate m .message)).phase = true ∨
      ∃ n, ∀ b, busy (Spec.alone cfg s (List.replicate n .message)).phase = true ∧
        (Spec.alone cfg s (List.replicate n .message)).poll cfg b =
          doneConn (authenticateNewClient cfg.K cfg.H cfg.ident s) := by
    intro m
    induction m with
    | zero => exact .inl rfl
    | succ m ih =>
      rcases ih with ih | ih
      · rcases auth_poll (alone_inv hid s _).2 ih .message _ rfl with ⟨h, -⟩ | h
        · left
          rw [List.replicate_succ', alone_snoc]
          exact h
        · exact .inr ⟨m, fun b => ⟨ih, by rw [poll_busy ih b .message]; exact h⟩⟩
      · exact .inr ih
  rcases key (s.inp.length + 3) with h | h
  · rcases C51_authenticated cfg hid s (List.replicate (s.inp.length + 3) .message) (by simp) with
      ⟨user, st, h'⟩ | h'
    · rw [h'] at h; cases h
    · rw [h'] at h; cases h
  · exact h

theorem smooth_messages (n : Nat) : Spec.Smooth (List.replicate n .message) := by
  intro cut e h
  cases List.eq_of_mem_replicate h

theorem Spec.Smooth.right {as bs : List Client.Step} (h : Spec.Smooth (as ++ bs)) : Spec.Smooth bs :=
  fun cut e he => h cut e (List.mem_append_right _ he)

theorem Spec.Smooth.join {as bs : List Client.Step} (h : Spec.Smooth as) (h' : Spec.Smooth bs) :
    Spec.Smooth (as ++ bs) := fun cut e he => (List.mem_append.mp he).elim (h cut e) (h' cut e)

/-- the events are not too many for the packet counters -/
def Spec.Few (t : List Event) : Prop := (Spec.payloads t).length + (Spec.sentPayloads t).length + 5 < 2 ^ 64

theorem Spec.Few.fresh {t0 t1 : List Event} (h : Spec.Few (t0 ++ t1))
    (h1 : a.receive.counter.toNat = 3 + (Spec.payloads t0).length)
    (h2 : a.send.counter.toNat = 3 + (Spec.payloads t0).length) : Spec.Fresh a t1 := by
  unfold Spec.Few at h
  rw [payloads_append, sentPayloads_append, List.length_append, List.length_append] at h
  unfold Spec.Fresh
  omega

/-- the step with which a session ends -/
theorem last_step {K : Crypto} {C : ConnHandlers} {st0 : Client.St} {sched : List Client.Step} {io : IoSt}
    {r : R Client.Stop (Client.St ⊕ Unit)} (h : Client.steps K C user st0 sched s = (r, io))
    (hr : ∀ st, r ≠ ok (.inl st)) :
    ∃ pre x st io1 more, sched = pre ++ [x] ++ more ∧ Client.steps K C user st0 pre s = (ok (.inl st), io1) ∧
      Client.step K C user st x io1 = (r, io) := by
  induction sched generalizing st0 s with
  | nil => cases h; exact absurd rfl (hr _)
  | cons x sched ih =>
    rw [Client.steps, M.bind_run] at h
    rcases hx : Client.step K C user st0 x s with ⟨r1, s1⟩
    rw [hx] at h
    have one : (r1, s1) = (r, io) → ∃ pre x' st io1 more, x :: sched = pre ++ [x'] ++ more ∧
        Client.steps K C user st0 pre s = (ok (.inl st), io1) ∧ Client.step K C user st x' io1 = (r, io) := by
      intro e
      exact ⟨[], x, st0, s, sched, rfl, rfl, by rw [hx, e]⟩
    cases r1 with
    | ok y =>
      cases y with
      | inl st' =>
        obtain ⟨pre, x', st, io1, more, rfl, h1, h2⟩ := ih h
        refine ⟨x :: pre, x', st, io1, more, rfl, ?_, h2⟩
        rw [Client.steps, M.bind_run, hx]
        exact h1
      | inr u => exact one h
    | err e => exact one h
    | panic => exact one h

theorem alone_open (hid : Spec.Fits cfg.ident) (hw : s.wcap = none) (hlen : s.inp.length + 4 < 2 ^ 64)
    (hc : Spec.Few t) :
    (∃ as st io, Spec.Smooth as ∧ Spec.alone cfg s as = ⟨.session user st, io⟩ ∧ io.log = s.log ++ t) ↔
      Spec.Open cfg s.rng s.inp s.log user t := by
  constructor
  · rintro ⟨as, st, io, h1, h2, h3⟩
    have hA := (alone_inv hid s as).1
    rw [h2] at hA
    cases hA with
    | busy h => exact absurd rfl (h _ _)
    | session g1 g2 =>
      rename_i pre sched a s2
      obtain ⟨t0, f1, he⟩ := entered_of hid hw hlen g1
      obtain ⟨u, hu, -⟩ := session_log g2
      replace hu : io.log = s2.log ++ u := hu
      rw [hu, f1, List.append_assoc] at h3
      obtain rfl := List.append_cancel_left h3
      obtain ⟨a', s2', k1, k2, k3, k4, k5, k6, k7, k8, k9, k10⟩ := he.run hid hw hlen
      rw [g1] at k1
      cases k1
      have hF := hc.fresh k9 (k8.trans k9)
      obtain ⟨ps, rest, e, rest', r1, r2⟩ := C95_streams cfg.K (Spec.keysOf a.receive)
        a.receive.counter.toNat s2.inp (by omega)
      have hp := received_only g2 hu h1.right r1 r2 hF
      have ht := ((C95_sessions k4 r1 hF hp.length_le).mp ⟨_, _, _, h1.right, g2, hu⟩).1
      obtain ⟨more, rfl⟩ := hp
      obtain ⟨m, r3, -⟩ := r1.append
      rw [f1] at ht
      exact .mk he r3 ht
  · rintro ⟨he, h2, h3⟩
    rename_i t0 t1 k n w rest
    obtain ⟨a, s2, k1, rfl, k3, k4, rfl, rfl, rfl, k8, k9, k10⟩ := he.run hid hw hlen
    have hF := hc.fresh k9 (k8.trans k9)
    rw [← k3] at h3
    obtain ⟨sched, st, io, g1, g2, g3⟩ := (C95_sessions k4 h2 hF (Nat.le_refl _)).mpr ⟨h3, List.prefix_rfl⟩
    obtain ⟨n, hn⟩ := auth_done (cfg := cfg) hid s
    have hn := (hn .message).2
    rw [k1] at hn
    have e : Spec.alone cfg s (List.replicate n .message ++ [.message]) =
        ⟨.session a.user (Client.start a), s2⟩ := by
      rw [alone_snoc, hn]
      rfl
    refine ⟨List.replicate n .message ++ [.message] ++ sched, st, io, ?_, ?_, ?_⟩
    · rw [← List.replicate_succ']
      exact (smooth_messages _).join g1
    · rw [alone_session e, g2]
      rfl
    · rw [g3, k3, List.append_assoc]

/-- a client that is not authenticated -/
theorem closed_auth {r : R Unit Authenticated} (hid : Spec.Fits cfg.ident) (hw : s.wcap = none)
    (hlen : s.inp.length + 4 < 2 ^ 64) (hr : ∀ a, r ≠ ok a) :
    (authenticateNewClient cfg.K cfg.H cfg.ident s).1 = r →
    ∃ t, (authenticateNewClient cfg.K cfg.H cfg.ident s).2.log = s.log ++ t ∧
      Spec.Closed cfg s.rng s.inp s.log (Spec.panics r) t := by
  intro h
  have hlog := (Tame.handshake cfg.K cfg.ident s).1
  obtain ⟨x, sent, h1, -, h2⟩ := C99_outcome cfg.K cfg.ident s hid hw
  rcases hx : Host.handleNewClient cfg.K cfg.ident s with ⟨r1, s1⟩
  rw [hx] at h2 hlog
  cases r1 with
  | ok c =>
    obtain ⟨a, g1, g2⟩ := handshake_shakes hid hw hx
    obtain ⟨t, f1, f2, f3⟩ := session_reads (H := cfg.H) hid hx hw hlen
    rw [h] at f2 f3
    refine ⟨t, f1, ?_⟩
    have e : Spec.panics r = Spec.panics (r.map (·.user)) := by cases r <;> rfl
    rw [e]
    refine .refused g1 g2 ?_ f2 f3
    cases r with
    | ok a => exact absurd rfl (hr a)
    | err e => simp [R.map]
    | panic => simp [R.map]
  | err e =>
    have e1 : authenticateNewClient cfg.K cfg.H cfg.ident s = (err (), s1) := by
      rw [authenticateNewClient, M.bind_err (by rw [M.mapErr_run, hx]; rfl)]
    rw [e1] at h ⊢
    subst h
    refine ⟨[], by rw [List.append_nil]; exact hlog, ?_⟩
    cases x with
    | fails w b => exact .failed h1
    | panics b => exact nomatch h2.1
    | session a rest => obtain ⟨-, -, c', h2, -⟩ := h2; cases h2
  | panic =>
    have e1 : authenticateNewClient cfg.K cfg.H cfg.ident s = (R.panic, s1) := by
      rw [authenticateNewClient, M.bind_panic (by rw [M.mapErr_run, hx]; rfl)]
    rw [e1] at h ⊢
    subst h
    refine ⟨[], by rw [List.append_nil]; exact hlog, ?_⟩
    cases x with
    | fails w b => obtain ⟨⟨e, h2, -⟩, -⟩ := h2; cases h2
    | panics b => exact .panicked h1
    | session a rest => obtain ⟨-, -, c', h2, -⟩ := h2; cases h2

/-- the way of a client alone whose authentication fails -/
theorem alone_refused {r : R Unit Nat} (hid : Spec.Fits cfg.ident) (hr : ∀ u, r ≠ ok u)
    (h : (authenticateNewClient cfg.K cfg.H cfg.ident s).1.map (·.user) = r)
    (hl : (authenticateNewClient cfg.K cfg.H cfg.ident s).2.log = s.log ++ t) :
    ∃ as b io, Spec.Smooth (as ++ [b]) ∧ (Spec.alone cfg s as).phase ≠ .ended ∧
      (Spec.alone cfg s as).poll cfg b = (⟨.ended, io⟩, Spec.panics r) ∧ io.log = s.log ++ t := by
  obtain ⟨n, hn⟩ := auth_done (cfg := cfg) hid s
  obtain ⟨h1, h2⟩ := hn .message
  refine ⟨List.replicate n .message, .message, (authenticateNewClient cfg.K cfg.H cfg.ident s).2, ?_, ?_, ?_, hl⟩
  · rw [← List.replicate_succ']
    exact smooth_messages _
  · intro h
    rw [h] at h1
    cases h1
  · rw [h2]
    rcases hx : authenticateNewClient cfg.K cfg.H cfg.ident s with ⟨r1, io⟩
    rw [hx] at h
    cases r1 with
    | ok a => exact absurd h.symm (hr _)
    | err e => subst h; rfl
    | panic => subst h; rfl

theorem alone_closed {stops : Bool} (hid : Spec.Fits cfg.ident) (hw : s.wcap = none)
    (hlen : s.inp.length + 4 < 2 ^ 64) (hc : Spec.Few t) :
    (∃ as b io, Spec.Smooth (as ++ [b]) ∧ (Spec.alone cfg s as).phase ≠ .ended ∧
      (Spec.alone cfg s as).poll cfg b = (⟨.ended, io⟩, stops) ∧ io.log = s.log ++ t) ↔
      Spec.Closed cfg s.rng s.inp s.log stops t := by
  constructor
  · rintro ⟨as, b, io, h1, h2, h3, h4⟩
    obtain ⟨hA, hinv⟩ := alone_inv hid s as
    cases hb : busy (Spec.alone cfg s as).phase with
    | true =>
      rcases auth_poll hinv hb b _ rfl with ⟨h, -⟩ | h
      · rw [h3] at h
        cases h
      · rw [h3] at h
        rcases hx : authenticateNewClient cfg.K cfg.H cfg.ident s with ⟨r, io'⟩
        rw [hx] at h
        have hr : ∀ a, r ≠ ok a := by
          rintro a rfl
          cases h
        obtain ⟨t', f1, f2⟩ := closed_auth hid hw hlen hr (by rw [hx])
        rw [hx] at f1
        cases r with
        | ok a => exact absurd rfl (hr a)
        | err e =>
          cases h
          rw [h4] at f1
          rw [List.append_cancel_left f1]
          exact f2
        | panic =>
          cases h
          rw [h4] at f1
          rw [List.append_cancel_left f1]
          exact f2
    | false =>
      generalize hcon : Spec.alone cfg s as = c at hA h2 h3 hb
      cases hA with
      | busy g1 g2 =>
        rename_i phase _
        cases phase with
        | session => exact absurd rfl (g1 _ _)
        | ended => exact absurd rfl g2
        | _ => cases hb
      | refused => exact absurd rfl h2
      | ended => exact absurd rfl h2
      | session g1 g2 =>
        rename_i pre sched a s2 st io1
        obtain ⟨t0, f1, he⟩ := entered_of hid hw hlen g1
        have g3 := steps_snoc (x := b) g2
        have hpoll : (Client.step cfg.K cfg.C a.user st b io1).2 = io ∧
            Spec.panics (Client.step cfg.K cfg.C a.user st b io1).1 = stops ∧
            ∀ st', (Client.step cfg.K cfg.C a.user st b io1).1 ≠ ok (.inl st') := by
          unfold Conn.poll at h3
          simp only [Phase.step, M.bind_run, M.mapErr_run] at h3
          rcases hy : Client.step cfg.K cfg.C a.user st b io1 with ⟨r, io2⟩
          rw [hy] at h3
          cases r with
          | ok x =>
            cases x with
            | inl st' => cases h3
            | inr u => cases h3; exact ⟨rfl, rfl, by simp⟩
          | err e => cases h3; exact ⟨rfl, rfl, by simp⟩
          | panic => cases h3; exact ⟨rfl, rfl, by simp⟩
        rcases hy : Client.step cfg.K cfg.C a.user st b io1 with ⟨r, io2⟩
        rw [hy] at hpoll g3
        obtain ⟨rfl, rfl, hr⟩ := hpoll
        obtain ⟨u, hu, -⟩ := session_log g3
        replace hu : io2.log = s2.log ++ u := hu
        rw [hu, f1, List.append_assoc] at h4
        obtain rfl := List.append_cancel_left h4
        obtain ⟨a', s2', k1, k2, k3, k4, k5, k6, k7, k8, k9, k10⟩ := he.run hid hw hlen
        rw [g1] at k1
        cases k1
        have hF := hc.fresh k9 (k8.trans k9)
        obtain ⟨ps, rest, e, rest', r1, r2⟩ := C95_streams cfg.K (Spec.keysOf a.receive)
          a.receive.counter.toNat s2.inp (by omega)
        rw [List.append_assoc] at h1
        obtain ⟨t1, b', rfl, q1, q2, q3⟩ :=
          (C95_endings k4 r1 r2 hF hr).mp ⟨_, _, h1.right, g3, hu⟩
        rw [f1] at q1 q3
        exact .left he r1 r2 q1 q2 hr q3
  · intro h
    have hlog := (Tame.handshake cfg.K cfg.ident s).1
    cases h with
    | failed h =>
      obtain ⟨e, h1, -⟩ := ((C99_exact cfg.K cfg.ident s hid hw).1 _).mpr ⟨_, h⟩
      rcases hx : Host.handleNewClient cfg.K cfg.ident s with ⟨r1, s1⟩
      rw [hx] at h1 hlog
      cases h1
      have e1 : authenticateNewClient cfg.K cfg.H cfg.ident s = (err (), s1) := by
        rw [authenticateNewClient, M.bind_err (by rw [M.mapErr_run, hx]; rfl)]
      exact alone_refused (r := err ()) hid (by simp) (by rw [e1]; rfl)
        (by rw [e1, List.append_nil]; exact hlog)
    | panicked h =>
      have h1 := (C99_exact cfg.K cfg.ident s hid hw).2.1.mpr ⟨_, h⟩
      rcases hx : Host.handleNewClient cfg.K cfg.ident s with ⟨r1, s1⟩
      rw [hx] at h1 hlog
      cases h1
      have e1 : authenticateNewClient cfg.K cfg.H cfg.ident s = (R.panic, s1) := by
        rw [authenticateNewClient, M.bind_panic (by rw [M.mapErr_run, hx]; rfl)]
      exact alone_refused (r := R.panic) hid (by simp) (by rw [e1]; rfl)
        (by rw [e1, List.append_nil]; exact hlog)
    | refused h1 h2 h3 h4 h5 =>
      obtain ⟨c, s1, g1, rfl, rfl, -, rfl⟩ := shakes_handshake hid hw h1 h2
      obtain ⟨f1, f2⟩ := (C97_exact cfg.K cfg.H cfg.ident s s1 c hid g1 hw hlen _ _).mpr ⟨h4, h5⟩
      exact alone_refused hid h3 f1 f2
    | left he h2 h3 h4 h5 h6 h7 =>
      rename_i user t0 t1 b k n w ps e rest rest' r
      obtain ⟨a, s2, k1, rfl, k3, k4, rfl, rfl, rfl, k8, k9, k10⟩ := he.run hid hw hlen
      have hF := hc.fresh k9 (k8.trans k9)
      rw [← k3] at h4 h7
      obtain ⟨sched, io, g1, g2, g3⟩ := (C95_endings k4 h2 h3 hF h6).mpr ⟨_, _, rfl, h4, h5, h7⟩
      obtain ⟨n, hn⟩ := auth_done (cfg := cfg) hid s
      have hn := (hn .message).2
      rw [k1] at hn
      have ea : Spec.alone cfg s (List.replicate n .message ++ [.message]) =
          ⟨.session a.user (Client.start a), s2⟩ := by
        rw [alone_snoc, hn]
        rfl
      obtain ⟨sched0, x, st, io1, more, rfl, q1, q2⟩ := last_step g2 h6
      refine ⟨List.replicate n .message ++ [.message] ++ sched0, x, io, ?_, ?_, ?_, ?_⟩
      · rw [← List.replicate_succ', List.append_assoc]
        refine (smooth_messages _).join ?_
        intro cut e he
        exact g1 cut e (List.mem_append_left _ he)
      · rw [alone_session ea, q1]
        intro h
        cases h
      · rw [alone_session ea, q1]
        unfold Conn.poll
        simp only [Spec.phaseAfter, Phase.step, M.bind_run, M.mapErr_run, q2]
        cases r with
        | ok y =>
          cases y with
          | inl st' => exact absurd rfl (h6 st')
          | inr u => rfl
        | err e => rfl
        | panic => rfl
      · rw [g3, k3, List.append_assoc]

/-! ### the clients of a server -/

/-- a server with one client, which is polled only -/
theorem run_solo (s : IoSt) (as : List Client.Step) (h : (Spec.alone cfg s as).phase ≠ .ended) :
    run cfg (.accept s :: as.map (.poll 0)) = ⟨[Spec.alone cfg s as], true⟩ ∧
      Spec.own 0 (.accept s :: as.map (.poll 0)) = some (s, as) := by
  induction as using list_snoc_induction with
  | nil => exact ⟨rfl, rfl⟩
  | snoc as b ih =>
    rw [alone_snoc] at h
    have h0 : (Spec.alone cfg s as).phase ≠ .ended := by
      intro h0
      apply h
      unfold Conn.poll
      rw [h0]
      rfl
    obtain ⟨h1, h2⟩ := ih h0
    rw [List.map_append, List.map_cons, List.map_nil, ← List.cons_append]
    refine ⟨?_, ?_⟩
    · rw [run_snoc, h1, alone_snoc]
      have hp : ((Spec.alone cfg s as).poll cfg b).2 = false := by
        unfold Conn.poll at h ⊢
        revert h
        rcases Phase.step cfg b (Spec.alone cfg s as).phase (Spec.alone cfg s as).io with ⟨r, io⟩
        cases r with
        | ok p => exact fun _ => rfl
        | err e => exact fun _ => rfl
        | panic => exact fun h => absurd rfl h
      simp only [State.step, if_true, List.getElem?_cons_zero, List.set_cons_zero, hp, Bool.not_false]
    · rw [own_snoc]
      rw [Spec.own] at h2
      simp only [Spec.ownStep, if_true, h2, Option.map_some]

/-- a step of a client of a running server -/
theorem run_poll {ops : List Op} {i : Nat} {as : List Client.Step} (hr : (run cfg ops).running = true)
    (ho : Spec.own i ops = some (s, as)) (b : Client.Step) :
    (run cfg ops).conns[i]? = some (Spec.alone cfg s as) ∧
      (run cfg (ops ++ [.poll i b])).conns[i]? = some ((Spec.alone cfg s as).poll cfg b).1 ∧
      (run cfg (ops ++ [.poll i b])).running = !((Spec.alone cfg s as).poll cfg b).2 := by
  have hc : (run cfg ops).conns[i]? = some (Spec.alone cfg s as) := by
    rw [C51_isolated_partial cfg ops hr i, ho]
    rfl
  refine ⟨hc, ?_⟩
  rw [run_snoc]
  simp only [State.step, hr, if_true, hc]
  exact ⟨List.getElem?_set_self (List.getElem?_eq_some_iff.mp hc).1, trivial⟩

/-- C100: what the sessions of the clients of a server are, exactly. A client connects with `s`: it sends
`s.inp`, and writes to it succeed. Then there is a run of the server in which it is in the session of `user`
after the events `t`, if and only if the specification says so: its stream starts with a handshake, with which
these keys are agreed on; then come packets sealed with these keys, with which it is authenticated, as this
user; and then packets for which these are the events of a session. -/
theorem C100_open (cfg : Config) (s : IoSt) (user : Nat) (t : List Event) (hid : Spec.Fits cfg.ident)
    (hw : s.wcap = none) (hlen : s.inp.length + 4 < 2 ^ 64) (hc : Spec.Few t) :
    (∃ ops i as st io, (run cfg ops).running = true ∧ Spec.own i ops = some (s, as) ∧ Spec.Smooth as ∧
      (run cfg ops).conns[i]? = some ⟨.session user st, io⟩ ∧ io.log = s.log ++ t) ↔
    Spec.Open cfg s.rng s.inp s.log user t := by
  rw [← alone_open hid hw hlen hc]
  constructor
  · rintro ⟨ops, i, as, st, io, h1, h2, h3, h4, h5⟩
    rw [C51_isolated_partial cfg ops h1 i, h2] at h4
    exact ⟨as, st, io, h3, Option.some.inj h4, h5⟩
  · rintro ⟨as, st, io, h1, h2, h3⟩
    obtain ⟨g1, g2⟩ := run_solo (cfg := cfg) s as (by rw [h2]; simp)
    refine ⟨_, 0, as, st, io, by rw [g1], g2, h1, ?_, h3⟩
    rw [g1, h2]
    rfl

/-- C100: and other clients do not matter. If the specification allows these events, the client has steps
with which it is there in every run of the server. -/
theorem C100_always (cfg : Config) (s : IoSt) (user : Nat) (t : List Event) (hid : Spec.Fits cfg.ident)
    (hw : s.wcap = none) (hlen : s.inp.length + 4 < 2 ^ 64) (hc : Spec.Few t)
    (h : Spec.Open cfg s.rng s.inp s.log user t) :
    ∃ as st io, Spec.Smooth as ∧ io.log = s.log ++ t ∧ ∀ ops i, (run cfg ops).running = true →
      Spec.own i ops = some (s, as) → (run cfg ops).conns[i]? = some ⟨.session user st, io⟩ := by
  obtain ⟨as, st, io, h1, h2, h3⟩ := (alone_open hid hw hlen hc).mpr h
  refine ⟨as, st, io, h1, h3, fun ops i hr ho => ?_⟩
  rw [C51_isolated_partial cfg ops hr i, ho, Option.map_some, h2]

/-- C100: how connections end, exactly. There is a run of the server in which a step of the client ends its
connection after the events `t`, and stops the server or does not, if and only if the specification says so:
its handshake fails, or it is not authenticated, or its session ends. -/
theorem C100_closed (cfg : Config) (s : IoSt) (stops : Bool) (t : List Event) (hid : Spec.Fits cfg.ident)
    (hw : s.wcap = none) (hlen : s.inp.length + 4 < 2 ^ 64) (hc : Spec.Few t) :
    (∃ ops i as b c io, (run cfg ops).running = true ∧ Spec.own i ops = some (s, as) ∧
      Spec.Smooth (as ++ [b]) ∧ (run cfg ops).conns[i]? = some c ∧ c.phase ≠ .ended ∧
      (run cfg (ops ++ [.poll i b])).conns[i]? = some ⟨.ended, io⟩ ∧
      (run cfg (ops ++ [.poll i b])).running = !stops ∧ io.log = s.log ++ t) ↔
    Spec.Closed cfg s.rng s.inp s.log stops t := by
  rw [← alone_closed hid hw hlen hc]
  constructor
  · rintro ⟨ops, i, as, b, c, io, h1, h2, h3, h4, h5, h6, h7, h8⟩
    obtain ⟨g1, g2, g3⟩ := run_poll h1 h2 b
    rw [g1] at h4
    cases h4
    rw [g2] at h6
    rw [g3] at h7
    exact ⟨as, b, io, h3, h5, Prod.ext (Option.some.inj h6) (Bool.not_inj h7), h8⟩
  · rintro ⟨as, b, io, h1, h2, h3, h4⟩
    obtain ⟨g1, g2⟩ := run_solo (cfg := cfg) s as h2
    have hr : (run cfg (.accept s :: as.map (.poll 0))).running = true := by rw [g1]
    obtain ⟨f1, f2, f3⟩ := run_poll hr g2 b
    exact ⟨_, 0, as, b, _, io, hr, g2, h1, f1, h2, by rw [f2, h3], by rw [f3, h3], h4⟩

/-- C100: a client gets in as one user, in one way -/
theorem C100_entered (cfg : Config) (s : IoSt) (user user' : Nat) (t t' : List Event) (k k' : Spec.Keys)
    (n n' : Nat) (w w' : Bytes) (hid : Spec.Fits cfg.ident) (hw : s.wcap = none)
    (hlen : s.inp.length + 4 < 2 ^ 64) (h : Spec.Entered cfg s.rng s.inp s.log user t k n w)
    (h' : Spec.Entered cfg s.rng s.inp s.log user' t' k' n' w') :
    user = user' ∧ t = t' ∧ k = k' ∧ n = n' ∧ w = w' := by
  obtain ⟨a, s2, h1, rfl, h3, -, rfl, rfl, rfl, -⟩ := h.run hid hw hlen
  obtain ⟨a', s2', g1, rfl, g3, -, rfl, rfl, rfl, -⟩ := h'.run hid hw hlen
  rw [h1] at g1
  cases g1
  rw [h3] at g3
  exact ⟨rfl, List.append_cancel_left g3, rfl, rfl, rfl⟩

/-- C100: each client gets in or does not: its handshake fails or it is not authenticated, and then its
connection ends in one way -/
theorem C100_entry (cfg : Config) (s : IoSt) (hid : Spec.Fits cfg.ident) (hw : s.wcap = none)
    (hlen : s.inp.length + 4 < 2 ^ 64) :
    (∃ user t k n w, Spec.Entered cfg s.rng s.inp s.log user t k n w) ∨
    ((∀ user t k n w, ¬ Spec.Entered cfg s.rng s.inp s.log user t k n w) ∧
      ∃ stops t, Spec.Closed cfg s.rng s.inp s.log stops t) := by
  rcases hx : authenticateNewClient cfg.K cfg.H cfg.ident s with ⟨r, s2⟩
  have no : (∀ a, r ≠ ok a) → (∀ user t k n w, ¬ Spec.Entered cfg s.rng s.inp s.log user t k n w) ∧
      ∃ stops t, Spec.Closed cfg s.rng s.inp s.log stops t := by
    intro hr
    refine ⟨fun user t k n w h => ?_, ?_⟩
    · obtain ⟨a, s2', h1, -⟩ := h.run hid hw hlen
      rw [hx] at h1
      cases h1
      exact hr a rfl
    · obtain ⟨t, -, h⟩ := closed_auth hid hw hlen hr (by rw [hx])
      exact ⟨_, t, h⟩
  cases r with
  | ok a =>
    obtain ⟨t, -, h⟩ := entered_of hid hw hlen hx
    exact .inl ⟨_, _, _, _, _, h⟩
  | err e => exact .inr (no (by simp))
  | panic => exact .inr (no (by simp))

/-! ### examples -/

/-- a client that authenticates with a password -/
def entryPayloads : List Bytes :=
  [Spec.encode (.serviceRequest ⟨b! "ssh-userauth"⟩),
   Spec.encode (Spec.request (b! "u") (b! "ssh-connection") (.password (b! "pw")))]

/-- the events of its authentication -/
def entryLog : List Event :=
  [.received (Spec.encode (.serviceRequest ⟨b! "ssh-userauth"⟩)), .sent Spec.acceptReply,
   .received (Spec.encode (Spec.request (b! "u") (b! "ssh-connection") (.password (b! "pw")))),
     .auth (b! "u") (b! "ssh-connection") (.password (b! "pw")) (some 1000), .sent Spec.successReply]

theorem entryLog_payloads : Spec.payloads entryLog = entryPayloads := rfl

theorem entry_entered (rest : Bytes) :
    Spec.Entered wholeConfig (clientState entryPayloads rest).rng (clientState entryPayloads rest).inp
      [] 1000 entryLog flatKeys 5 rest := by
  obtain ⟨c, s1, h1, h2, h3, h4⟩ := flat_session entryPayloads rest
  obtain ⟨a, g1, g2⟩ := handshake_shakes (cfg := wholeConfig) (by decide) rfl h1
  have hs := conversation_stream rest entryPayloads 3 (by decide)
  rw [← h4] at hs
  rw [h2] at g2
  refine .mk (t := entryLog) g1 g2 ?_ (by rw [entryLog_payloads]; exact hs)
  exact .served (t := []) (legal_encode (show Spec.Fits (b! "ssh-userauth") by decide)) .nil
    (.accepted (.mk (.password (legal_encode
      (m := Spec.request (b! "u") (b! "ssh-connection") (.password (b! "pw")))
      ⟨by decide, by decide, show Spec.Fits _ by decide⟩)) (by rfl)))

/-- its session has begun, -/
example (rest : Bytes) : Spec.Open wholeConfig (clientState entryPayloads rest).rng
    (clientState entryPayloads rest).inp [] 1000 entryLog := by
  have h := Spec.Open.mk (t1 := []) (entry_entered rest) rfl .nil
  rwa [List.append_nil] at h

/-- and ends, if it sends nothing more; there is a run of the server in which this happens -/
example : ∃ ops i as b c io, (run wholeConfig ops).running = true ∧
    Spec.own i ops = some (clientState entryPayloads [], as) ∧ Spec.Smooth (as ++ [b]) ∧
    (run wholeConfig ops).conns[i]? = some c ∧ c.phase ≠ .ended ∧
    (run wholeConfig (ops ++ [.poll i b])).conns[i]? = some ⟨.ended, io⟩ ∧
    (run wholeConfig (ops ++ [.poll i b])).running = !false ∧ io.log = [] ++ entryLog := by
  refine (C100_closed wholeConfig (clientState entryPayloads []) false entryLog (by decide) rfl
    (by decide +kernel) (by unfold Spec.Few; decide +kernel)).mpr ?_
  have h := Spec.Closed.left (t1 := []) (b := []) (ps := []) (r := err (.recv .read))
    (entry_entered []) rfl (.short (by decide)) .nil (List.prefix_refl _) (by simp) (.lost ⟨rfl, rfl⟩)
  rw [List.append_nil, List.append_nil] at h
  exact h

/-- a web browser that is connected by mistake -/
example (K : Config) (rng : Tape) (l : List Event) :
    Spec.Closed K rng (b! "GET / HTTP/1.1\r\n\r\n") l false [] :=
  .failed (.ident (e := .io) ((C21_errors _ _).mp (by decide)))

end

end Nora
