import Verif.Props.Server
import Verif.Lemmas.FlowConn
/-
The clients of a server, from the connection on.
-/
namespace Nora
open R Server

variable {cfg : Config}

/-- a client of a server, running or not -/
theorem conn_of_run {ops : List Op} {i : Nat} {c : Conn} (hc : (run cfg ops).conns[i]? = some c) :
    ∃ s as more, Spec.own i ops = some (s, as ++ more) ∧ c = Spec.alone cfg s as ∧
      ((run cfg ops).running = true → more = []) := by
  obtain ⟨pre, post, h1, h2, h3⟩ := run_prefix (cfg := cfg) ops
  have h4 := (h2 i).2
  rw [hc] at h4
  cases ho : Spec.own i pre with
  | none => rw [ho] at h4; cases h4
  | some x =>
    obtain ⟨s, as⟩ := x
    rw [ho] at h4
    obtain ⟨more, h5⟩ := own_append post ho
    rw [← h1] at h5
    refine ⟨s, as, more, h5, by simpa using h4, fun hr => ?_⟩
    have := h3 hr
    subst this
    rw [List.append_nil] at h1
    subst h1
    rw [ho] at h5
    simpa using h5.symm

/-! ### the log -/

/-- no process was involved -/
def NoProc (t : List Event) : Prop := ∀ e, .proc e ∉ t

theorem Spec.Round.noProc {H : Handlers} {sid : Bytes} {l t : List Event} (h : Spec.Round H sid l t) :
    NoProc t := by
  intro e
  cases h <;> simp

theorem Spec.Story.noProc {H : Handlers} {sid : Bytes} {l0 l t : List Event}
    (h : Spec.Story (Spec.Explained H sid l0) l t) : NoProc t := by
  intro e
  induction t generalizing l with
  | nil => simp
  | cons x t ih =>
    obtain ⟨h1, h2⟩ := h
    have := ih h2
    rintro hm
    rcases List.mem_cons.mp hm with rfl | hm
    · exact h1
    · exact this hm

/-- the log before the end of the authentication -/
def LogInv (s : IoSt) (c : Conn) : Prop :=
  match c.phase with
  | .new => c.io.log = s.log
  | .service _ => c.io.log = s.log
  | .auth _ _ => ∃ t, c.io.log = s.log ++ t ∧ NoProc t
  | _ => True

theorem log_service {s io : IoSt} {cl : HostClient}
    (h1 : io.log = s.log) {a : Client.Step} :
    ∀ c, (Conn.poll cfg a ⟨.service cl, io⟩).1 = c → LogInv s c := by
  rintro c rfl
  have hst := startSt_ok cl
  unfold Conn.poll
  simp only [step_service, M.bind_run]
  generalize startSt cl = st0 at hst
  have hs := service_ok cfg.K hst io
  rcases hx : Server.service cfg.K st0 io with ⟨r, io1⟩
  rw [hx] at hs
  cases r with
  | ok st =>
    obtain ⟨p, h, _⟩ := hs
    exact ⟨_, by rw [← h1]; exact h, by intro e; simp⟩
  | err e => trivial
  | panic => trivial

theorem log_inv (hid : Spec.Fits cfg.ident) (s : IoSt) (as : List Client.Step) :
    LogInv s (Spec.alone cfg s as) := by
  induction as using list_snoc_induction with
  | nil => exact rfl
  | snoc as a ih =>
    have hinv := (alone_inv hid s as).2
    rw [alone_snoc]
    generalize Spec.alone cfg s as = c at ih hinv
    obtain ⟨phase, io⟩ := c
    cases phase with
    | new =>
      replace ih : io.log = s.log := ih
      unfold Conn.poll
      simp only [Phase.step, M.bind_run, M.mapErr_run]
      rcases hx : Host.handleNewClient cfg.K cfg.ident io with ⟨r, io1⟩
      cases r with
      | ok cl => exact ((handshake_session hid hx).2.2.2.2.1).trans ih
      | err e => trivial
      | panic => trivial
    | service cl =>
      have hl : ∀ c, (Conn.poll cfg a ⟨.service cl, io⟩).1 = c → LogInv s c := log_service ih
      generalize (Conn.poll cfg a ⟨.service cl, io⟩).1 = c at hl ⊢
      exact hl c rfl
    | auth sid st =>
      obtain ⟨t, h1, h2⟩ := ih
      obtain ⟨g1, g2, _⟩ := hinv
      have hs := attempt_ok cfg.K cfg.H g1 g2 io
      unfold Conn.poll
      simp only [Phase.step, M.bind_run]
      rcases hx : attempt cfg.K cfg.H sid st io with ⟨r, io1⟩
      rw [hx] at hs
      cases r with
      | ok x =>
        cases x with
        | inl st' =>
          obtain ⟨t', h3, h4, _⟩ := hs
          refine ⟨t ++ t', ?_, fun e => ?_⟩
          · rw [← List.append_assoc, ← h1]; exact h3
          · rw [List.mem_append]
            rintro (h | h)
            · exact h2 e h
            · exact h4.noProc e h
        | inr c => trivial
      | err e => trivial
      | panic => trivial
    | session user st =>
      unfold Conn.poll
      simp only [Phase.step, M.bind_run, M.mapErr_run]
      rcases Client.step cfg.K cfg.C user st a io with ⟨r, io1⟩
      cases r with
      | ok x => cases x <;> trivial
      | err e => trivial
      | panic => trivial
    | ended => trivial

/-- no client is authenticated twice -/
theorem Spec.Story.oneAuth {H : Handlers} {sid : Bytes} {l0 pre post : List Event}
    {user service : Bytes} {arg : AuthArg} {u : Nat}
    (h : Spec.Story (Spec.Explained H sid l0) [] (pre ++ .auth user service arg (some u) :: post)) :
    post = [] ∨ post = [.sent Spec.successReply] := by
  have h1 := (h.at rfl).2
  cases post with
  | nil => exact .inl rfl
  | cons e post =>
    right
    obtain ⟨h2, h3⟩ := h1
    rw [List.nil_append] at h2 h3
    have := after_auth h2
    subst this
    cases post with
    | nil => rfl
    | cons e' post =>
      obtain ⟨h4, _⟩ := h3
      exact absurd rfl (after_sent h4).2

/-! ### bytes -/

/-- a write was dropped -/
def Spec.WriteCut (as : List Client.Step) : Prop := ∃ n e, .event (.write n) e ∈ as

/-- a read was dropped -/
def Spec.ReadCut (as : List Client.Step) : Prop := ∃ n e, .event (.read n) e ∈ as

theorem Spec.WriteCut.append {as : List Client.Step} (h : Spec.WriteCut as) (bs : List Client.Step) :
    Spec.WriteCut (as ++ bs) := by
  obtain ⟨n, e, h⟩ := h
  exact ⟨n, e, List.mem_append_left _ h⟩

theorem Spec.ReadCut.append {as : List Client.Step} (h : Spec.ReadCut as) (bs : List Client.Step) :
    Spec.ReadCut (as ++ bs) := by
  obtain ⟨n, e, h⟩ := h
  exact ⟨n, e, List.mem_append_left _ h⟩

/-- the ciphers after the handshake -/
def firstEnds (cl : HostClient) : Ends := ⟨cl.sendCipher, cl.receiveCipher, True⟩

/-- what went over the connection since the handshake -/
def Since (cfg : Config) (s : IoSt) (as : List Client.Step) (io : IoSt) (o : Option Ends) : Prop :=
  ∃ cl s1, Host.handleNewClient cfg.K cfg.ident s = (ok cl, s1) ∧
    Carries cfg.K (Spec.WriteCut as) (Spec.ReadCut as) (firstEnds cl) s1 io o

theorem Since.next {s io io1 : IoSt} {as : List Client.Step} {e : Ends} {o : Option Ends}
    (h : Since cfg s as io (some e)) (a : Client.Step)
    (g : Carries cfg.K (Spec.WriteCut (as ++ [a])) (Spec.ReadCut (as ++ [a])) e io io1 o) :
    Since cfg s (as ++ [a]) io1 o := by
  obtain ⟨cl, s1, h1, h2⟩ := h
  exact ⟨cl, s1, h1, (h2.mono (·.append _) (·.append _)).trans g⟩

/-- the bytes up to now -/
def FlowInv (cfg : Config) (s : IoSt) (as : List Client.Step) (c : Conn) : Prop :=
  match c.phase with
  | .new => c.io = s
  | .service cl => Host.handleNewClient cfg.K cfg.ident s = (ok cl, c.io)
  | .auth _ st => Since cfg s as c.io (some st.ends)
  | .session _ st => Since cfg s as c.io (some st.ends)
  | .ended => (∃ r, Host.handleNewClient cfg.K cfg.ident s = (r, c.io) ∧ ∀ cl, r ≠ ok cl) ∨
    Since cfg s as c.io none

theorem flow_service {s io : IoSt} {cl : HostClient} {as : List Client.Step}
    (h1 : Host.handleNewClient cfg.K cfg.ident s = (ok cl, io)) {a : Client.Step} :
    ∀ c, (Conn.poll cfg a ⟨.service cl, io⟩).1 = c → FlowInv cfg s (as ++ [a]) c := by
  rintro c rfl
  have hst := startSt_ok cl
  unfold Conn.poll
  simp only [step_service, M.bind_run]
  have e1 : (startSt cl).send = cl.sendCipher := rfl
  have e2 : (startSt cl).receive = cl.receiveCipher := rfl
  generalize startSt cl = st0 at hst e1 e2
  have hf := Flow.service (K := cfg.K) (D := Spec.WriteCut (as ++ [a])) (G := Spec.ReadCut (as ++ [a]))
    st0 hst io
  have hs : ∀ o, Carries cfg.K (Spec.WriteCut (as ++ [a])) (Spec.ReadCut (as ++ [a])) st0.ends io
      (Server.service cfg.K st0 io).2 o → Since cfg s (as ++ [a]) (Server.service cfg.K st0 io).2 o := by
    intro o h
    refine ⟨cl, io, h1, ?_⟩
    unfold Carries firstEnds
    rw [← e1, ← e2]
    exact h
  rcases hx : Server.service cfg.K st0 io with ⟨r, io1⟩
  rw [hx] at hf hs
  cases r with
  | ok st => exact hs _ hf
  | err e => exact .inr (hs _ hf)
  | panic => exact .inr (hs _ hf)

theorem flow_inv (hid : Spec.Fits cfg.ident) (s : IoSt) (as : List Client.Step) :
    FlowInv cfg s as (Spec.alone cfg s as) := by
  induction as using list_snoc_induction with
  | nil => exact rfl
  | snoc as a ih =>
    have hinv := (alone_inv hid s as).2
    rw [alone_snoc]
    generalize Spec.alone cfg s as = c at ih hinv
    obtain ⟨phase, io⟩ := c
    cases phase with
    | new =>
      replace ih : io = s := ih
      subst ih
      unfold Conn.poll
      simp only [Phase.step, M.bind_run, M.mapErr_run]
      rcases hx : Host.handleNewClient cfg.K cfg.ident io with ⟨r, io1⟩
      cases r with
      | ok cl => exact hx
      | err e => exact .inl ⟨_, hx, by simp⟩
      | panic => exact .inl ⟨_, hx, by simp⟩
    | service cl =>
      have hl : ∀ c, (Conn.poll cfg a ⟨.service cl, io⟩).1 = c → FlowInv cfg s (as ++ [a]) c :=
        flow_service ih
      generalize (Conn.poll cfg a ⟨.service cl, io⟩).1 = c at hl ⊢
      exact hl c rfl
    | auth sid st =>
      replace ih : Since cfg s as io (some st.ends) := ih
      obtain ⟨g1, g2, _⟩ := hinv
      have hf := Flow.attempt (K := cfg.K) (D := Spec.WriteCut (as ++ [a]))
        (G := Spec.ReadCut (as ++ [a])) cfg.H sid st g2 io
      unfold Conn.poll
      simp only [Phase.step, M.bind_run]
      rcases hx : attempt cfg.K cfg.H sid st io with ⟨r, io1⟩
      rw [hx] at hf
      replace hf := ih.next a hf
      cases r with
      | ok x =>
        cases x with
        | inl st' => exact hf
        | inr c =>
          obtain ⟨cl, s1, h1, h2⟩ := hf
          exact ⟨cl, s1, h1, h2.fine (fun _ => List.length_replicate ..)⟩
      | err e => exact .inr hf
      | panic => exact .inr hf
    | session user st =>
      replace ih : Since cfg s as io (some st.ends) := ih
      have hfine : st.ends.fine := by
        obtain ⟨_, _, _, h⟩ := ih
        exact h.isFine
      have hf := Flow.step (K := cfg.K) (D := Spec.WriteCut (as ++ [a]))
        (G := Spec.ReadCut (as ++ [a])) cfg.C user st (a := a)
        (fun n e h => ⟨n, e, by simp [h]⟩) (fun n e h => ⟨n, e, by simp [h]⟩) hfine io
      unfold Conn.poll
      simp only [Phase.step, M.bind_run, M.mapErr_run]
      rcases hx : Client.step cfg.K cfg.C user st a io with ⟨r, io1⟩
      rw [hx] at hf
      replace hf := ih.next a hf
      cases r with
      | ok x =>
        cases x with
        | inl st' => exact hf
        | inr u => exact .inr hf
      | err e =>
        obtain ⟨cl, s1, h1, h2⟩ := hf
        exact .inr ⟨cl, s1, h1, h2.stop⟩
      | panic => exact .inr hf
    | ended =>
      rcases ih with h | h
      · exact .inl h
      · right
        obtain ⟨cl, s1, h1, h2⟩ := h
        exact ⟨cl, s1, h1, h2.mono (·.append _) (·.append _)⟩

end Nora
