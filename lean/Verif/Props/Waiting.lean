import Verif.Props.Connection
import Verif.Props.WholeWitness
/-
C111: where the clients are that have not been authenticated yet, exactly.
-/
namespace Nora
open R Server

/-- The client that sends `inp` has done the handshake and is being authenticated, with the events `t`; `l` is
the log before, and `rest` is left of the stream. -/
inductive Spec.Undecided (cfg : Config) (rng : Tape) (inp : Bytes) (l : List Event) : List Event → Bytes → Prop
  /-- it has not asked for the service yet -/
  | shaken {a w} : Spec.Shakes inp (.session a w) → Undecided cfg rng inp l [] w
  /-- it has, and then come requests that were answered but not granted -/
  | asked {a sid k k' w p0 t rest} : Spec.Shakes inp (.session a w) →
    Spec.Agreed cfg.K cfg.ident rng a sid k k' → Spec.ServiceRequested p0 →
    Spec.Rounds cfg.H sid (l ++ [.received p0, .sent Spec.acceptReply]) t →
    Spec.Arrive cfg.K k 3 (p0 :: Spec.payloads t) w rest →
    Undecided cfg rng inp l ([.received p0, .sent Spec.acceptReply] ++ t) rest

/-- whether the handshake of a client is done and its authentication is not -/
def Spec.unknown : Phase → Bool
  | .service _ | .auth _ _ => true
  | _ => false

section
variable {cfg : Config} {s : IoSt}

theorem Spec.Rounds.snoc {H : Handlers} {sid : Bytes} {l t r : List Event} (h : Spec.Rounds H sid l t)
    (h' : Spec.Round H sid (l ++ t) r) : Spec.Rounds H sid l (t ++ r) := by
  induction h with
  | nil => rw [List.append_nil] at h'; simpa using Spec.Rounds.cons h' .nil
  | cons h1 h2 ih =>
    rw [List.append_assoc]
    exact .cons h1 (ih (by rw [List.append_assoc]; exact h'))

/-- what is known about a client that is being authenticated -/
def WaitInv (cfg : Config) (s : IoSt) (c : Conn) : Prop :=
  match c.phase with
  | .new => c.io = s
  | .service cl => Host.handleNewClient cfg.K cfg.ident s = (ok cl, c.io)
  | .auth sid st => ∃ a k k' w p0 t, Spec.Shakes s.inp (.session a w) ∧
      Spec.Agreed cfg.K cfg.ident s.rng a sid k k' ∧ Spec.ServiceRequested p0 ∧
      Spec.Rounds cfg.H sid (s.log ++ [.received p0, .sent Spec.acceptReply]) t ∧
      Spec.Arrive cfg.K k 3 (p0 :: Spec.payloads t) w c.io.inp ∧
      c.io.log = s.log ++ [.received p0, .sent Spec.acceptReply] ++ t ∧
      Spec.Fits sid ∧ st.Ok ∧ c.io.wcap = none ∧ Room st c.io ∧ Spec.keysOf st.receive = k ∧
      st.receive.counter.toNat = 4 + (Spec.payloads t).length
  | _ => True

theorem wait_service (hid : Spec.Fits cfg.ident) (hw : s.wcap = none) (hlen : s.inp.length + 4 < 2 ^ 64)
    {cl : HostClient} {io : IoSt} {st0 : AuthSt} (ih : Host.handleNewClient cfg.K cfg.ident s = (ok cl, io))
    (hst : st0.Ok) (hsend : st0.send = cl.sendCipher) (hrecv : st0.receive = cl.receiveCipher) :
    ∀ st io1, Server.service cfg.K st0 io = (ok st, io1) → WaitInv cfg s ⟨.auth cl.sessionIdentifier st, io1⟩ := by
  intro st io1 hx
  obtain ⟨a, g1, g2⟩ := handshake_shakes hid hw ih
  obtain ⟨hc1, hc2, hsl, hin, hlog, hw1⟩ := handshake_session hid ih
  have e1 : st0.send.counter.toNat = 3 := by
    rw [hsend, hc2]; rfl
  have e2 : st0.receive.counter.toNat = 3 := by
    rw [hrecv, hc1]; rfl
  have hroom : Room st0 io := by
    rw [Room, e1, e2]
    omega
  rw [← hrecv] at g2
  have hs := service_ok cfg.K hst io
  rw [hx] at hs
  obtain ⟨p, h1, h2, h3, ⟨h4, h5, h6⟩, q, b', s2, h7, h8, h9, h10⟩ := hs
  have harr := arrive_iff hst.pkt (by omega) |>.mp ⟨_, _, _, h7, rfl⟩
  obtain ⟨c', buf', s1, f1, f2, f3, f4⟩ := Spec.Arrive.recv harr hst.pkt (by omega)
  rw [h7] at f1
  cases f1
  obtain ⟨u, hu⟩ := service_starts hst h7
  rw [hx] at hu
  have hpq : p = q := by
    rw [h1] at hu
    cases List.append_cancel_left hu
    rfl
  subst hpq
  refine ⟨a, _, _, io.inp, p, [], g1, g2, h2, .nil, ?_, ?_, by rw [Spec.Fits, hsl]; omega, h3, h5 (hw1 hw),
    h6 hroom, f2, by rw [f3, e2]; rfl⟩
  · rw [e2] at harr
    show Spec.Arrive cfg.K _ 3 [p] io.inp io1.inp
    rw [h8]
    exact harr
  · rw [List.append_nil, ← hlog]; exact h1

theorem wait_inv (hid : Spec.Fits cfg.ident) (hw : s.wcap = none) (hlen : s.inp.length + 4 < 2 ^ 64)
    (as : List Client.Step) : WaitInv cfg s (Spec.alone cfg s as) := by
  induction as using list_snoc_induction with
  | nil => rfl
  | snoc as b ih =>
    rw [alone_snoc]
    generalize Spec.alone cfg s as = c at ih
    obtain ⟨phase, io⟩ := c
    cases phase with
    | new =>
      change io = s at ih
      subst ih
      unfold Conn.poll
      simp only [Phase.step, M.bind_run, M.mapErr_run]
      rcases hx : Host.handleNewClient cfg.K cfg.ident io with ⟨r, io1⟩
      cases r with
      | ok cl => exact hx
      | err e => trivial
      | panic => trivial
    | service cl =>
      replace ih : Host.handleNewClient cfg.K cfg.ident s = (ok cl, io) := ih
      have hs := wait_service hid hw hlen ih (startSt_ok cl) rfl rfl
      unfold Conn.poll
      simp only [step_service, M.bind_run]
      generalize startSt cl = st0 at hs
      rcases hx : Server.service cfg.K st0 io with ⟨r, io1⟩
      cases r with
      | ok st => exact hs _ _ hx
      | err e => trivial
      | panic => trivial
    | auth sid st =>
      obtain ⟨a, k, k', w, p0, t, g1, g2, g3, g4, g5, g6, g7, g8, g9, g10, g11, g12⟩ := ih
      replace g5 : Spec.Arrive cfg.K k 3 (p0 :: Spec.payloads t) w io.inp := g5
      replace g6 : io.log = s.log ++ [.received p0, .sent Spec.acceptReply] ++ t := g6
      replace g10 : Room st io := g10
      have hs := attempt_ok cfg.K cfg.H g7 g8 io
      unfold Conn.poll
      simp only [Phase.step, M.bind_run]
      rcases hx : attempt cfg.K cfg.H sid st io with ⟨r, io1⟩
      rw [hx] at hs
      cases r with
      | ok x =>
        cases x with
        | inl st' =>
          obtain ⟨t', h3, h4, h3', ⟨-, h5, h6⟩, q, b', s2, h7, h8, h9, h10⟩ := hs
          have hroom := g10.2
          have harr := arrive_iff g8.pkt (by omega) |>.mp ⟨_, _, _, h7, rfl⟩
          obtain ⟨c', buf', s1, f1, f2, f3, f4⟩ := Spec.Arrive.recv harr g8.pkt (by omega)
          rw [h7] at f1
          cases f1
          obtain ⟨u, hu⟩ := attempt_starts (H := cfg.H) (sid := sid) g8 h7
          rw [hx] at hu
          obtain ⟨p, t'', e1, e2, -⟩ := h4.start
          have hpq : q = p := by
            rw [h3, e1] at hu
            cases List.append_cancel_left hu
            rfl
          subst hpq
          refine ⟨a, k, k', w, p0, t ++ t', g1, g2, g3, g4.snoc (by rw [← g6]; exact h4), ?_, ?_, g7, h3', h5 g9,
            h6 g10, by rw [f2, g11], ?_⟩
          · rw [payloads_append, e2, ← List.cons_append]
            refine g5.concat ?_
            rw [List.length_cons, show 3 + ((Spec.payloads t).length + 1) = st.receive.counter.toNat by omega, ← g11]
            show Spec.Arrive _ _ _ _ _ io1.inp
            rw [h8]
            exact harr
          · rw [← List.append_assoc, ← g6]; exact h3
          · rw [f3, g12, payloads_append, e2]; simp; omega
        | inr c => trivial
      | err e => trivial
      | panic => trivial
    | session user st =>
      unfold Conn.poll
      simp only [Phase.step, M.bind_run, M.mapErr_run]
      rcases Client.step cfg.K cfg.C user st b io with ⟨r, io1⟩
      cases r with
      | ok x => cases x <;> trivial
      | err e => trivial
      | panic => trivial
    | ended => trivial

theorem rounds_polls {sid : Bytes} (hsid : Spec.Fits sid) {l t : List Event} (hr : Spec.Rounds cfg.H sid l t) :
    ∀ {st : AuthSt} {io : IoSt} {rest : Bytes}, l = io.log → st.Ok → io.wcap = none → Room st io →
      Spec.Arrive cfg.K (Spec.keysOf st.receive) st.receive.counter.toNat (Spec.payloads t) io.inp rest →
      ∃ n st' io', (List.replicate n Client.Step.message).foldl (fun (c : Conn) a => (c.poll cfg a).1)
          ⟨.auth sid st, io⟩ = ⟨.auth sid st', io'⟩ ∧ io'.log = io.log ++ t ∧ io'.inp = rest := by
  induction hr with
  | nil =>
    intro st io rest _ hst hw hroom hi
    exact ⟨0, st, io, rfl, by simp, hi⟩
  | @cons l r t h1 _ ih =>
    rintro st io rest rfl hst hw hroom hi
    obtain ⟨p, t', e1, e2, _⟩ := h1.start
    rw [payloads_append, e2] at hi
    obtain ⟨c', buf', s1, g1, g2, g3, g4⟩ := hi.recv hst.pkt (by have := hroom.2; omega)
    rw [e1] at h1
    obtain ⟨st', s', k1, k2, k3, k4, k5, k6, k7, k8, k9⟩ := attempt_round hsid hst g1 hw hroom h1
    rw [← k6, ← k7] at g4
    obtain ⟨n, st2, s2, m1, m2, m3⟩ := ih (by rw [k2, e1]) k3 k4 k5 g4
    refine ⟨n + 1, st2, s2, ?_, ?_, m3⟩
    · rw [List.replicate_succ, List.foldl_cons, ← m1]
      congr 1
      unfold Conn.poll
      simp only [Phase.step, M.bind_run]
      rw [k1]
      rfl
    · rw [m2, k2, e1]; simp

theorem Spec.Undecided.messages (hid : Spec.Fits cfg.ident) (hw : s.wcap = none) (hlen : s.inp.length + 4 < 2 ^ 64)
    {t : List Event} {rest : Bytes} (h : Spec.Undecided cfg s.rng s.inp s.log t rest) :
    ∃ n, Spec.unknown (Spec.alone cfg s (List.replicate n .message)).phase = true ∧
      (Spec.alone cfg s (List.replicate n .message)).io.log = s.log ++ t ∧
      (Spec.alone cfg s (List.replicate n .message)).io.inp = rest := by
  cases h with
  | shaken h1 =>
    rename_i a
    obtain ⟨c, hc⟩ := (C99_exact cfg.K cfg.ident s hid hw).2.2.mpr ⟨_, _, h1⟩
    rcases hx : Host.handleNewClient cfg.K cfg.ident s with ⟨r, s1⟩
    rw [hx] at hc
    cases hc
    obtain ⟨a', g1, -⟩ := handshake_shakes hid hw hx
    cases C99_one_outcome _ _ _ h1 g1
    have hp : Spec.alone cfg s (List.replicate 1 .message) = ⟨.service c, s1⟩ := by
      show (Conn.poll cfg .message ⟨.new, s⟩).1 = _
      unfold Conn.poll
      simp only [Phase.step, M.bind_run, M.mapErr_run]
      rw [hx]
      rfl
    refine ⟨1, by rw [hp]; rfl, ?_, by rw [hp]⟩
    rw [hp, List.append_nil]
    exact (handshake_session hid hx).2.2.2.2.1
  | asked h1 h2 h3 h4 h5 =>
    rename_i a sid k k' w p0 t
    obtain ⟨cl, s1, g1, rfl, rfl, rfl, rfl⟩ := shakes_handshake hid hw h1 h2
    obtain ⟨hc1, hc2, hsl, hin, hlog, hw1⟩ := handshake_session hid g1
    have hsid : Spec.Fits cl.sessionIdentifier := by rw [Spec.Fits, hsl]; omega
    have e1 : (startSt cl).send.counter.toNat = 3 := by
      show cl.sendCipher.counter.toNat = 3
      rw [hc2]; rfl
    have e2 : (startSt cl).receive.counter.toNat = 3 := by
      show cl.receiveCipher.counter.toNat = 3
      rw [hc1]; rfl
    have hroom : Room (startSt cl) s1 := by
      rw [Room, e1, e2]
      omega
    have hstart := startSt_ok cl
    obtain ⟨c', buf', s2, f1, f2, f3, f4⟩ := Spec.Arrive.recv (c := (startSt cl).receive) (buf := (startSt cl).pktBuf)
      (by rw [e2]; exact h5) hstart.pkt (by rw [e2]; omega)
    obtain ⟨st1, s3, k1, k2, k3, k4, k5, k6, k7, -⟩ := service_run hstart (hw1 hw) hroom f1 h3
    rw [hlog] at k2
    rw [← k6, ← k7] at f4
    obtain ⟨n, st2, s4, m1, m2, m3⟩ := rounds_polls hsid h4 k2.symm k3 k4 k5 f4
    have hp : Spec.alone cfg s [.message, .message] = ⟨.auth cl.sessionIdentifier st1, s3⟩ := by
      show (Conn.poll cfg .message (Conn.poll cfg .message ⟨.new, s⟩).1).1 = _
      have hq : (Conn.poll cfg .message ⟨.new, s⟩).1 = ⟨.service cl, s1⟩ := by
        unfold Conn.poll
        simp only [Phase.step, M.bind_run, M.mapErr_run]
        rw [g1]
        rfl
      rw [hq]
      unfold Conn.poll
      simp only [step_service, M.bind_run]
      rw [k1]
      rfl
    have hq : Spec.alone cfg s (List.replicate (n + 2) .message) =
        ⟨.auth cl.sessionIdentifier st2, s4⟩ := by
      rw [← m1, ← hp]
      exact List.foldl_append (l := [Client.Step.message, .message])
    refine ⟨n + 2, by rw [hq]; rfl, by rw [hq, ← List.append_assoc, ← k2]; exact m2, by rw [hq]; exact m3⟩

theorem alone_waiting (hid : Spec.Fits cfg.ident) (hw : s.wcap = none) (hlen : s.inp.length + 4 < 2 ^ 64)
    {t : List Event} {rest : Bytes} :
    (∃ as, Spec.unknown (Spec.alone cfg s as).phase = true ∧ (Spec.alone cfg s as).io.log = s.log ++ t ∧
      (Spec.alone cfg s as).io.inp = rest) ↔ Spec.Undecided cfg s.rng s.inp s.log t rest := by
  constructor
  · rintro ⟨as, h1, h2, rfl⟩
    have hi := wait_inv hid hw hlen as
    generalize Spec.alone cfg s as = c at hi h1 h2
    obtain ⟨phase, io⟩ := c
    cases phase with
    | service cl =>
      replace hi : Host.handleNewClient cfg.K cfg.ident s = (ok cl, io) := hi
      obtain ⟨a, g1, g2⟩ := handshake_shakes hid hw hi
      have hl := (handshake_session hid hi).2.2.2.2.1
      rw [show io.log = s.log ++ t from h2] at hl
      have : t = [] := by simpa using hl
      subst this
      exact .shaken g1
    | auth sid st =>
      obtain ⟨a, k, k', w, p0, t', g1, g2, g3, g4, g5, g6, -⟩ := hi
      rw [show io.log = s.log ++ t from h2, List.append_assoc] at g6
      rw [List.append_cancel_left g6]
      exact .asked g1 g2 g3 g4 g5
    | _ => cases h1
  · intro h
    obtain ⟨n, h⟩ := h.messages hid hw hlen
    exact ⟨_, h⟩

end

/-- C111: where the clients are that have not been authenticated yet, exactly. A client connects with `s`: it
sends `s.inp`, and writes to it succeed. Then there is a run of the server in which its handshake is done, its
authentication is not, the events `t` have happened and `rest` of its stream is not yet read, if and only if the
specification says so: its stream starts with a handshake; and nothing more is read, or it asks for the service and
then makes requests, each of which is answered as it should be, and none is granted. -/
theorem C111_waiting (cfg : Config) (s : IoSt) (t : List Event) (rest : Bytes) (hid : Spec.Fits cfg.ident)
    (hw : s.wcap = none) (hlen : s.inp.length + 4 < 2 ^ 64) :
    (∃ ops i as c, (run cfg ops).running = true ∧ Spec.own i ops = some (s, as) ∧
      (run cfg ops).conns[i]? = some c ∧ Spec.unknown c.phase = true ∧ c.io.log = s.log ++ t ∧ c.io.inp = rest) ↔
    Spec.Undecided cfg s.rng s.inp s.log t rest := by
  rw [← alone_waiting hid hw hlen]
  constructor
  · rintro ⟨ops, i, as, c, h1, h2, h4, h5⟩
    rw [C51_isolated_partial cfg ops h1 i, h2] at h4
    cases h4
    exact ⟨as, h5⟩
  · rintro ⟨as, h1, h2⟩
    obtain ⟨g1, g2⟩ := run_solo (cfg := cfg) s as (by intro h; rw [h] at h1; cases h1)
    refine ⟨_, 0, as, _, by rw [g1], g2, ?_, h1, h2⟩
    rw [g1]
    rfl

/-- C111: and other clients do not matter: if the specification allows it, the client has steps with which it is
there in every run of the server. -/
theorem C111_always (cfg : Config) (s : IoSt) (t : List Event) (rest : Bytes) (hid : Spec.Fits cfg.ident)
    (hw : s.wcap = none) (hlen : s.inp.length + 4 < 2 ^ 64) (h : Spec.Undecided cfg s.rng s.inp s.log t rest) :
    ∃ as c, Spec.unknown c.phase = true ∧ c.io.log = s.log ++ t ∧ c.io.inp = rest ∧ ∀ ops i,
      (run cfg ops).running = true → Spec.own i ops = some (s, as) → (run cfg ops).conns[i]? = some c := by
  obtain ⟨as, h1, h2, h3⟩ := (alone_waiting hid hw hlen).mpr h
  refine ⟨as, _, h1, h2, h3, fun ops i hr ho => ?_⟩
  rw [C51_isolated_partial cfg ops hr i, ho, Option.map_some]

/-- The client of `whole_run`, before its password is read: it has asked for the service and tried without
credentials, and was refused. -/
example : Spec.Undecided wholeConfig (clientState wholePayloads [9]).rng (clientState wholePayloads [9]).inp []
    (wholeLog.take 5) (conversation 5 (wholePayloads.drop 2) ++ [9]) := by
  obtain ⟨c, s1, h1, h2, h3, h4⟩ := flat_session wholePayloads [9]
  obtain ⟨a, g1, g2⟩ := handshake_shakes (cfg := wholeConfig) (by decide) rfl h1
  have hs := conversation_stream (conversation 5 (wholePayloads.drop 2) ++ [9]) (wholePayloads.take 2) 3 (by decide)
  rw [h4] at g1
  rw [h2] at g2
  refine .asked g1 g2 (legal_encode (show Spec.Fits _ by decide))
    (.cons (.refused (.none (legal_encode ⟨by decide, by decide, trivial⟩)) (by rfl)) .nil) ?_
  have e : conversation 3 wholePayloads ++ [9] =
      conversation 3 (wholePayloads.take 2) ++ (conversation 5 (wholePayloads.drop 2) ++ [9]) := by
    simp only [wholePayloads, conversation, List.take, List.drop, List.append_assoc, List.append_nil]
  rw [e]
  exact hs

end Nora
