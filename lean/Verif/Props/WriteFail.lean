import Verif.Props.Connection
import Verif.Lemmas.WriteCut
/-
C101: connections whose writes fail.
-/
namespace Nora
open R Server

variable {cfg : Config}

/-- whether the client is being authenticated: after the handshake, before its session -/
def Spec.Authenticating (c : Conn) : Prop :=
  (∃ h, c.phase = .service h) ∨ ∃ sid st, c.phase = .auth sid st

/-- What becomes of a client if the connection `s` takes only `n` more bytes: `c` is what becomes of it if all are
taken. -/
def Spec.CutOff (s : IoSt) (n : Nat) (c c' : Conn) : Prop :=
  ∃ sent, c.io.out = s.out ++ sent ∧
    (sent.length ≤ n → c' = ⟨c.phase, { c.io with wcap := some (n - sent.length) }⟩) ∧
    (n < sent.length → c'.phase = .ended ∧ c'.io.out = s.out ++ sent.take n ∧ c'.io.log <+: c.io.log)

/-- a step of a client -/
theorem phase_truncates (p : Phase) (a : Client.Step) :
    ∃ b, Truncates b (p.step cfg a) ∧
      (b = none ↔ (∃ h, p = .service h) ∨ ∃ sid st, p = .auth sid st) := by
  cases p with
  | new =>
    refine ⟨some (), ?_, by simp⟩
    exact ((Host.handleNewClient_truncates _ _).mapErr' rfl).bind fun _ => .quiet (Mute.pure _)
  | service c =>
    refine ⟨none, ?_, by simp⟩
    rw [step_service]
    exact (Server.service_truncates _ _).bind fun _ => .quiet (Mute.pure _)
  | auth sid st =>
    refine ⟨none, ?_, by simp⟩
    refine (Server.attempt_truncates _ _ _ _).bind fun x => ?_
    cases x <;> exact .quiet (Mute.pure _)
  | session user st =>
    refine ⟨some (), ?_, by simp⟩
    refine ((Client.step_truncates _ _ _ _ _).mapErr' rfl).bind fun x => ?_
    cases x <;> exact .quiet (Mute.pure _)
  | ended => exact ⟨some (), .quiet (Mute.pure _), by simp⟩

/-- the same for `poll` -/
theorem poll_truncates (c : Conn) (a : Client.Step) (hc : c.io.wcap = none) :
    ∃ sent, (c.poll cfg a).1.io.wcap = none ∧ (c.poll cfg a).1.io.out = c.io.out ++ sent ∧
      c.io.log <+: (c.poll cfg a).1.io.log ∧
      ∀ n, (sent.length ≤ n → Conn.poll cfg a ⟨c.phase, { c.io with wcap := some n }⟩ =
          (⟨(c.poll cfg a).1.phase, { (c.poll cfg a).1.io with wcap := some (n - sent.length) }⟩,
            (c.poll cfg a).2)) ∧
        (n < sent.length → ∃ io stops, Conn.poll cfg a ⟨c.phase, { c.io with wcap := some n }⟩ =
          (⟨.ended, io⟩, stops) ∧ (stops = true ↔ Spec.Authenticating c) ∧
          io.out = c.io.out ++ sent.take n ∧ io.log <+: (c.poll cfg a).1.io.log) := by
  obtain ⟨b, hb, hp⟩ := phase_truncates (cfg := cfg) c.phase a
  obtain ⟨r, s1, sent, h1, h2, h3, h4, h5⟩ := hb c.io hc
  have e : (c.poll cfg a).1.io = s1 := by
    unfold Conn.poll
    rw [h1]
    cases r <;> rfl
  rw [e]
  refine ⟨sent, h2, h3, h4, fun n => ⟨fun hn => ?_, fun hn => ?_⟩⟩
  · have := (h5 n).1 hn
    change c.phase.step cfg a { c.io with wcap := some n } = _ at this
    unfold Conn.poll
    simp only [this, h1]
    cases r <;> rfl
  · obtain ⟨s2, k1, k2, k3⟩ := (h5 n).2 hn
    change c.phase.step cfg a { c.io with wcap := some n } = _ at k1
    refine ⟨s2, b.isNone, ?_, ?_, k2, k3⟩
    · unfold Conn.poll
      simp only [k1]
      cases b <;> rfl
    · rw [Option.isNone_iff_eq_none]
      exact hp

theorem poll_ended (s : IoSt) (a : Client.Step) : Conn.poll cfg a ⟨.ended, s⟩ = (⟨.ended, s⟩, false) := rfl

/-- the connection stays without limit -/
theorem alone_wcap {s : IoSt} (hs : s.wcap = none) (as : List Client.Step) :
    (Spec.alone cfg s as).io.wcap = none := by
  induction as using list_snoc_induction with
  | nil => exact hs
  | snoc as a ih =>
    rw [alone_snoc]
    exact (poll_truncates _ a ih).choose_spec.1

/-- C101: if the connection of a client fails after `n` bytes, the client receives the first `n` of the bytes it
would receive otherwise. If these are all of them, nothing is different. If not, its connection ends, and until
then nothing was done that would not have been done otherwise. -/
theorem C101_cut (cfg : Config) (s : IoSt) (hs : s.wcap = none) (as : List Client.Step) (n : Nat) :
    Spec.CutOff s n (Spec.alone cfg s as) (Spec.alone cfg { s with wcap := some n } as) := by
  induction as using list_snoc_induction with
  | nil => exact ⟨[], by simp [Spec.alone], fun _ => rfl, fun h => absurd h (by simp)⟩
  | snoc as a ih =>
    rw [alone_snoc, alone_snoc]
    obtain ⟨sent, h1, h2, h3⟩ := ih
    obtain ⟨sent', g1, g2, g3, g4⟩ := poll_truncates (cfg := cfg) (Spec.alone cfg s as) a (alone_wcap hs as)
    refine ⟨sent ++ sent', by rw [g2, h1, List.append_assoc], fun hn => ?_, fun hn => ?_⟩
    · rw [List.length_append] at hn
      rw [h2 (by omega), (g4 _).1 (by omega), List.length_append, Nat.sub_sub]
    · rw [List.length_append] at hn
      by_cases hl : sent.length ≤ n
      · obtain ⟨io, b, k1, -, k2, k3⟩ := (g4 (n - sent.length)).2 (by omega)
        rw [h2 hl, k1]
        refine ⟨rfl, ?_, k3⟩
        show io.out = _
        rw [k2, h1, List.append_assoc, List.take_append, List.take_of_length_le hl]
      · obtain ⟨k1, k2, k3⟩ := h3 (by omega)
        generalize Spec.alone cfg { s with wcap := some n } as = c' at k1 k2 k3
        obtain ⟨p, io⟩ := c'
        cases k1
        rw [poll_ended]
        exact ⟨rfl, by rw [k2, List.take_append_of_le_length (by omega)], k3.trans g3⟩

/-- C101: the same for each client of a running server -/
theorem C101_server (cfg : Config) (ops : List Op) (hr : (run cfg ops).running = true) (i : Nat) (s : IoSt)
    (as : List Client.Step) (hs : s.wcap = none) (n : Nat)
    (ho : Spec.own i ops = some ({ s with wcap := some n }, as)) :
    ∃ c, (run cfg ops).conns[i]? = some c ∧ Spec.CutOff s n (Spec.alone cfg s as) c := by
  refine ⟨_, ?_, C101_cut cfg s hs as n⟩
  rw [C51_isolated_partial cfg ops hr i, ho]
  rfl

/-- C101: if the write that fails is in the authentication, the server stops. If it is in the handshake or in the
session, it goes on. -/
theorem C101_stops (cfg : Config) (ops : List Op) (hr : (run cfg ops).running = true) (i : Nat) (s : IoSt)
    (as : List Client.Step) (a : Client.Step) (hs : s.wcap = none) (n : Nat)
    (ho : Spec.own i ops = some ({ s with wcap := some n }, as))
    (h1 : (Spec.alone cfg s as).io.out.length ≤ s.out.length + n)
    (h2 : s.out.length + n < (Spec.alone cfg s (as ++ [a])).io.out.length) :
    (run cfg (ops ++ [.poll i a])).running = false ↔ Spec.Authenticating (Spec.alone cfg s as) := by
  obtain ⟨-, -, h3⟩ := run_poll hr ho a
  rw [h3]
  obtain ⟨sent, g1, g2, -⟩ := C101_cut cfg s hs as n
  obtain ⟨sent', -, k2, -, k4⟩ := poll_truncates (cfg := cfg) (Spec.alone cfg s as) a (alone_wcap hs as)
  rw [g1, List.length_append] at h1
  rw [alone_snoc, k2, g1, List.length_append, List.length_append] at h2
  obtain ⟨io, b, e1, e2, -⟩ := (k4 (n - sent.length)).2 (by omega)
  rw [g2 (by omega), e1, ← e2]
  simp

/-- C101: the error of the handshake is that of the write -/
theorem C101_handshake (K : Crypto) (ident : Bytes) (s : IoSt) (hs : s.wcap = none) (n : Nat)
    (h : s.out.length + n < (Host.handleNewClient K ident s).2.out.length) :
    (Host.handleNewClient K ident { s with wcap := some n }).1 = err .write := by
  obtain ⟨r, s1, sent, h1, -, h3, -, h5⟩ := Host.handleNewClient_truncates K ident s hs
  rw [h1, h3, List.length_append] at h
  obtain ⟨s2, k1, -⟩ := (h5 n).2 (by omega)
  have : Host.handleNewClient K ident { s with wcap := some n } = _ := k1
  rw [this]
  rfl

/-! ### examples -/

/-- the reply to the service request -/
theorem service_out {K : Crypto} {st st' : AuthSt} {s s' : IoSt} (hst : st.Ok)
    (h : Server.service K st s = (ok st', s')) : s.out.length < s'.out.length := by
  have h1 := service_ok K hst s
  have h2 := Flow.service (K := K) (D := False) (G := True) st hst s
  rw [h] at h1 h2
  obtain ⟨p, h3, -⟩ := h1
  obtain ⟨t, w, u, v, r', g1, g2, g3, g4, -⟩ := h2
  have : t = [.received p, .sent Spec.acceptReply] := List.append_cancel_left (g1.symm.trans h3)
  subst this
  generalize he : Spec.sentPayloads _ = ps at g4
  cases g4 with
  | nil => cases he
  | cons _ _ _ _ hm _ =>
    rw [List.take_of_length_le (Nat.le_of_not_lt fun hx => by simpa [endsAfter] using hm hx)] at g2
    rw [g2]
    simp only [List.length_append, Spec.sealed, mac_length]
    omega

/-- a client that is gone when the reply to its service request is sent: the server stops -/
example : ∃ n ops, (run wholeConfig ops).running = true ∧
    Spec.own 0 ops = some ({ clientState entryPayloads [] with wcap := some n }, [.message]) ∧
    (run wholeConfig (ops ++ [.poll 0 .message])).running = false := by
  obtain ⟨a, s3, hx, -⟩ := (entry_entered []).run (s := clientState entryPayloads []) (by decide) rfl (by decide +kernel)
  obtain ⟨c, s1, h1⟩ := handshake_of hx
  have hp : Conn.poll wholeConfig .message ⟨.new, clientState entryPayloads []⟩ = (⟨.service c, s1⟩, false) := by
    unfold Conn.poll
    simp only [Phase.step, M.bind_run, M.mapErr_run, h1]
    rfl
  have h2 : Spec.alone wholeConfig (clientState entryPayloads []) [.message] = ⟨.service c, s1⟩ := by
    rw [Spec.alone, List.foldl_cons, List.foldl_nil, hp]
  have h3 : ∃ st s2, Server.service wholeConfig.K (startSt c) s1 = (ok st, s2) := by
    rw [auth_service h1, M.bind_run] at hx
    rcases hy : Server.service wholeConfig.K (startSt c) s1 with ⟨r, s2⟩
    rw [hy] at hx
    cases r with
    | ok st => exact ⟨st, s2, rfl⟩
    | err e => cases hx
    | panic => cases hx
  obtain ⟨st, s2, h3⟩ := h3
  have hl := service_out (startSt_ok c) h3
  have h4 : (Spec.alone wholeConfig (clientState entryPayloads []) ([.message] ++ [.message])).io = s2 := by
    rw [alone_snoc, h2]
    unfold Conn.poll
    simp only [step_service, M.bind_run, h3]
    rfl
  have hw : (Spec.alone wholeConfig { clientState entryPayloads [] with wcap := some s1.out.length } [.message]).phase = .service c := by
    obtain ⟨sent, g1, g2, -⟩ := C101_cut wholeConfig (clientState entryPayloads []) rfl [.message] s1.out.length
    rw [h2] at g1 g2
    have : s1.out = sent := g1
    rw [g2 (by rw [this]; exact Nat.le_refl _)]
  obtain ⟨g1, g2⟩ := run_solo (cfg := wholeConfig) { clientState entryPayloads [] with wcap := some s1.out.length }
    [.message] (by rw [hw]; simp)
  refine ⟨s1.out.length, _, by rw [g1], g2, ?_⟩
  refine (C101_stops wholeConfig _ (by rw [g1]) 0 (clientState entryPayloads []) [.message] .message rfl _ g2 ?_ ?_).mpr ?_
  · rw [h2]
    exact Nat.le_add_left _ _
  · rw [h4]
    simpa [clientState] using hl
  · rw [h2]
    exact .inl ⟨c, rfl⟩

end Nora
