import Verif.Props.Auth
/-
C97: the specification of the authentication phase is exact. What happens after the handshake, for every
stream of a client, is what the specification says and nothing else.
-/
namespace Nora
open R

/-- the server was waiting for a packet when the session ended: at the beginning, or after a reply -/
def Spec.ForPacket (r : R Unit Nat) (t : List Event) : Prop :=
  t = [] ∨ r = err () ∧ ∃ t0 x, t = t0 ++ [.sent x]

/-- The session with the result `r` and the events `t` is one with a client that sends the bytes `w`, sealed
with the keys `k`: the packets received are those the stream consists of, one after the other from number 3
on; and if the server was waiting for a packet when the session ended, the rest of the stream does not start
with one. -/
def Spec.With (K : Crypto) (k : Spec.Keys) (w : Bytes) (r : R Unit Nat) (t : List Event) : Prop :=
  ∃ rest, Spec.Arrive K k 3 (Spec.payloads t) w rest ∧
    (Spec.ForPacket r t → ∀ p rest', ¬ Spec.Arrive K k (3 + (Spec.payloads t).length) [p] rest rest')

section
variable {K : Crypto} {H : Handlers} {sid : Bytes} {l t t' : List Event} {p : Bytes}

theorem Spec.Final.panic_unique (h : Spec.Final H sid False False l R.panic (.received p :: t))
    (h' : Spec.Final H sid False False l R.panic (.received p :: t')) : t = t' := by
  cases h with
  | fatal h =>
    cases h' with
    | fatal => rfl
    | tooLarge h1 => exact absurd h1 h.not_probe
    | probePanics h1 => exact absurd h1 h.not_probe
    | authPanics h1 => exact absurd h1 h.not_attempt
    | roundWrite w => exact w.elim
    | acceptedWrite w => exact w.elim
    | roundOverflow w => exact w.elim
    | acceptedOverflow w => exact w.elim
  | tooLarge h1 h2 h3 =>
    cases h' with
    | fatal h => exact absurd h1 h.not_probe
    | tooLarge h1' => obtain ⟨rfl, rfl, rfl, rfl⟩ := h1.unique h1'; rfl
    | probePanics h1' h2' =>
      obtain ⟨rfl, rfl, rfl, rfl⟩ := h1.unique h1'
      rw [h2] at h2'; cases h2'
    | authPanics h1' => exact absurd h1 h1'.not_probe
    | roundWrite w => exact w.elim
    | acceptedWrite w => exact w.elim
    | roundOverflow w => exact w.elim
    | acceptedOverflow w => exact w.elim
  | probePanics h1 h2 =>
    cases h' with
    | fatal h => rfl
    | tooLarge h1' h2' =>
      obtain ⟨rfl, rfl, rfl, rfl⟩ := h1.unique h1'
      rw [h2] at h2'; cases h2'
    | probePanics => rfl
    | authPanics => rfl
    | roundWrite w => exact w.elim
    | acceptedWrite w => exact w.elim
    | roundOverflow w => exact w.elim
    | acceptedOverflow w => exact w.elim
  | authPanics h1 h2 =>
    cases h' with
    | fatal h => rfl
    | tooLarge h1' => exact absurd h1' h1.not_probe
    | probePanics => rfl
    | authPanics => rfl
    | roundWrite w => exact w.elim
    | acceptedWrite w => exact w.elim
    | roundOverflow w => exact w.elim
    | acceptedOverflow w => exact w.elim
  | roundWrite w => exact w.elim
  | acceptedWrite w => exact w.elim
  | roundOverflow w => exact w.elim
  | acceptedOverflow w => exact w.elim

/-- the last part of a session has one packet at most -/
theorem Spec.Final.start {r : R Unit Nat} (h : Spec.Final H sid False False l r t) :
    (t = [] ∧ r = err ()) ∨ ∃ p t', t = .received p :: t' ∧ Spec.payloads t = [p] ∧
      (r = err () → t' = []) := by
  cases h with
  | lost => exact .inl ⟨rfl, rfl⟩
  | malformed => exact .inr ⟨_, _, rfl, rfl, fun _ => rfl⟩
  | accepted h =>
    obtain ⟨p, t', e1, e2, _⟩ := h.start
    exact .inr ⟨p, t', e1, e2, fun h => by cases h⟩
  | fatal => exact .inr ⟨_, _, rfl, rfl, fun _ => rfl⟩
  | tooLarge => exact .inr ⟨_, _, rfl, rfl, fun h => by cases h⟩
  | probePanics => exact .inr ⟨_, _, rfl, rfl, fun _ => rfl⟩
  | authPanics => exact .inr ⟨_, _, rfl, rfl, fun _ => rfl⟩
  | roundWrite w => exact w.elim
  | acceptedWrite w => exact w.elim
  | overflow w => exact w.elim
  | roundOverflow w => exact w.elim
  | acceptedOverflow w => exact w.elim

theorem Spec.Rounds.last (h : Spec.Rounds H sid l t) : t = [] ∨ ∃ t0 x, t = t0 ++ [.sent x] := by
  induction h with
  | nil => exact .inl rfl
  | @cons l r t h1 _ ih =>
    right
    rcases ih with rfl | ⟨t0, x, rfl⟩
    · cases h1 with
      | known => exact ⟨[_, _], _, rfl⟩
      | unknown => exact ⟨[_, _], _, rfl⟩
      | refused => exact ⟨[_, _], _, rfl⟩
    · exact ⟨r ++ t0, x, by simp⟩

/-- an iteration of the loop when there is no packet -/
theorem attempt_nothing {st : AuthSt} {s : IoSt} {e : InError × ChaCha × Bytes} {i : Bytes}
    (h : In.recv K st.receive st.pktBuf s = (err e, { s with inp := i })) :
    Server.attempt K H sid st s = (err (), { s with inp := i }) := by
  unfold Server.attempt
  rw [M.bind_err (e := ()) (s' := { s with inp := i }) (by rw [M.mapErr_run, h]; rfl)]

theorem service_nothing {st : AuthSt} {s : IoSt} {e : InError × ChaCha × Bytes} {i : Bytes}
    (h : In.recv K st.receive st.pktBuf s = (err e, { s with inp := i })) :
    Server.service K st s = (R.panic, { s with inp := i }) := by
  unfold Server.service
  rw [M.bind_panic (s' := { s with inp := i }) (by rw [M.unwrap_run, h]; rfl)]

theorem recv_next {c c' : ChaCha} {buf buf' : Bytes} {s s' : IoSt} (h4 : 4 ≤ buf.length)
    (h : In.recv K c buf s = (ok (p, c', buf'), s')) :
    Spec.keysOf c' = Spec.keysOf c ∧ c'.counter.toNat = c.counter.toNat + 1 := by
  rcases In.recv_outcome K c buf s h4 with ⟨e, i, g⟩ | ⟨_, i, g⟩ | ⟨_, q, c2, buf2, i, g, _, h1, h2, _⟩
  · rw [g] at h; cases h
  · rw [g] at h; cases h
  · rw [g] at h; cases h; exact ⟨h2, h1⟩

/-- what the loop logs, and what it has read for that -/
theorem loopN_reads (hsid : Spec.Fits sid) :
    ∀ (n : Nat) (st : AuthSt) (s : IoSt), st.Ok → s.inp.length < n → s.wcap = none → Room st s →
      ∃ t u rest, (Server.loopN K H sid n st s).2.log = s.log ++ t ++ u ∧ Spec.Rounds H sid s.log t ∧
        Spec.Final H sid False False (s.log ++ t)
          ((Server.loopN K H sid n st s).1.map (·.user)) u ∧
        Spec.Arrive K (Spec.keysOf st.receive) st.receive.counter.toNat (Spec.payloads (t ++ u)) s.inp
          rest ∧
        (u = [] → ∀ p r, ¬ Spec.Arrive K (Spec.keysOf st.receive)
          (st.receive.counter.toNat + (Spec.payloads (t ++ u)).length) [p] rest r) := by
  intro n
  induction n with
  | zero => intro st s _ h; omega
  | succ n ih =>
    intro st s hst hn hw hroom
    have hc : st.receive.counter.toNat + 1 < 2 ^ 64 := by have := hroom.2; omega
    have h4 : 4 ≤ st.pktBuf.length := by rw [hst.pkt]; omega
    rw [Server.loopN, M.bind_run]
    by_cases hno : ∀ p rest, ¬ Spec.Arrive K (Spec.keysOf st.receive) st.receive.counter.toNat [p] s.inp rest
    · obtain ⟨e, i, h⟩ := recv_nothing hst.pkt hc hno
      rw [attempt_nothing h]
      exact ⟨[], [], s.inp, by simp, .nil, by simpa using .lost, rfl, fun _ => hno⟩
    have hex : ∃ p rest, Spec.Arrive K (Spec.keysOf st.receive) st.receive.counter.toNat [p] s.inp rest := by
      refine Classical.byContradiction fun hn => hno fun p rest h => hn ⟨p, rest, h⟩
    obtain ⟨p, rest, har⟩ := hex
    obtain ⟨c', buf', s1, hrecv, hinp⟩ := (arrive_iff hst.pkt hc).mpr har
    obtain ⟨hk, hcc⟩ := recv_next h4 hrecv
    rcases attempt_step (H := H) hsid hst hrecv hw hroom with
      ⟨st', s', t', h1, h2, h3, h5, h6, h7, h8, h9, _⟩ | ⟨a, s', t', h1, h2, h3, _⟩ |
      ⟨s', h1, h2, h3⟩ | ⟨s', t', h1, h2, h3⟩
    · rw [h1]
      have hlen : s'.inp.length < n := by
        have := (In.recv_sealed h4 hrecv)
        obtain ⟨raw, _, _, e⟩ := this
        have := congrArg List.length e
        rw [h8]
        simp [Spec.sealed] at this
        omega
      obtain ⟨t, u, rest', g1, g2, g3, g4, g5⟩ := ih st' s' h5 hlen h6 h7
      obtain ⟨p', t'', e1, e2, _⟩ := h3.start
      obtain ⟨rfl, rfl⟩ := List.cons.inj e1 |>.imp (fun h => Event.received.inj h) id
      have e3 : Spec.payloads (.received p :: t' ++ t ++ u) = p :: Spec.payloads (t ++ u) := by
        rw [List.append_assoc, payloads_append, e2]; rfl
      refine ⟨.received p :: t' ++ t, u, rest', ?_, .cons h3 (h2 ▸ g2), ?_, ?_, ?_⟩
      · rw [g1, h2]; simp
      · rw [← List.append_assoc, ← h2]; exact g3
      · rw [e3]
        obtain ⟨raw, w', k1, k2, k3, rfl⟩ := har
        refine ⟨raw, w', k1, k2, k3, ?_⟩
        rw [← hk, ← hcc, ← hinp, ← h8, ← h9]
        exact g4
      · intro hu
        rw [e3, List.length_cons, ← hk, ← h9,
          show st.receive.counter.toNat + ((Spec.payloads (t ++ u)).length + 1) =
            st'.receive.counter.toNat + (Spec.payloads (t ++ u)).length by rw [h9, hcc]; omega]
        exact g5 hu
    · rw [h1]
      obtain ⟨p', t'', e1, e2, _⟩ := h3.start
      obtain ⟨rfl, rfl⟩ := List.cons.inj e1 |>.imp (fun h => Event.received.inj h) id
      refine ⟨[], .received p :: t', rest, by simpa using h2, .nil, by simpa using .accepted h3, ?_,
        fun h => by cases h⟩
      rw [List.nil_append, e2]; exact har
    · rw [h1]
      exact ⟨[], [.received p], rest, by simpa using h2, .nil, by simpa using .malformed h3, har,
        fun h => by cases h⟩
    · rw [h1]
      rcases h3.start with ⟨h, _⟩ | ⟨p', t'', e1, e2, _⟩
      · cases h
      obtain ⟨rfl, rfl⟩ := List.cons.inj e1 |>.imp (fun h => Event.received.inj h) id
      refine ⟨[], .received p :: t', rest, by simpa using h2, .nil, by rw [List.append_nil]; exact h3, ?_,
        fun h => by cases h⟩
      rw [List.nil_append, e2]; exact har

end

section
variable {K : Crypto} {H : Handlers} {ident : Bytes} {s s1 : IoSt} {c : HostClient}

/-- after the handshake comes the service request, then the loop -/
theorem after_handshake (hid : Spec.Fits ident) (h : Host.handleNewClient K ident s = (ok c, s1))
    (hw : s.wcap = none) (hlen : s.inp.length + 4 < 2 ^ 64) :
    Server.authenticateNewClient K H ident s = (do
      let st ← Server.service K (startSt c)
      Server.loop K H c.sessionIdentifier st : M Unit Authenticated) s1 ∧
    (startSt c).Ok ∧ Room (startSt c) s1 ∧ (startSt c).receive = c.receiveCipher ∧
    c.receiveCipher.counter.toNat = 3 ∧ s1.wcap = none ∧ s1.log = s.log ∧
    Spec.Fits c.sessionIdentifier := by
  obtain ⟨hc1, hc2, hsl, hin, hlog, hw1⟩ := handshake_session hid h
  refine ⟨?_, startSt_ok c, ?_, rfl, by rw [hc1]; rfl, hw1 hw, hlog, by rw [Spec.Fits, hsl]; omega⟩
  · rw [Server.authenticateNewClient, M.bind_ok (a := c) (s' := s1) (by rw [M.mapErr_run, h]; rfl)]
    rfl
  · have e1 : (startSt c).send.counter.toNat = 3 := by
      show c.sendCipher.counter.toNat = 3
      rw [hc2]; rfl
    have e2 : (startSt c).receive.counter.toNat = 3 := by
      show c.receiveCipher.counter.toNat = 3
      rw [hc1]; rfl
    rw [Room, e1, e2]
    omega

theorem service_other {st : AuthSt} {s s1 : IoSt} {p buf' : Bytes} {c' : ChaCha}
    (hst : st.Ok) (h : In.recv K st.receive st.pktBuf s = (ok (p, c', buf'), s1))
    (hp : ¬ Spec.ServiceRequested p) :
    ∃ s', Server.service K st s = (R.panic, s') ∧ s'.log = s.log ++ [.received p] := by
  have ha := service_ok K hst s
  obtain ⟨t, ht⟩ := service_starts hst h
  revert ha ht
  rcases Server.service K st s with ⟨r, s'⟩
  intro ha ht
  simp only at ht
  cases r with
  | err e => exact absurd ha id
  | ok st' =>
    obtain ⟨q, h1, h2, _⟩ := ha
    rw [h1] at ht
    have := List.append_cancel_left ht
    simp only [List.cons.injEq, Event.received.injEq] at this
    rw [this.1] at h2
    exact absurd h2 hp
  | panic =>
    obtain ⟨t', h1, h2⟩ := ha
    refine ⟨s', rfl, ?_⟩
    rw [ht] at h1 ⊢
    have h1 := List.append_cancel_left h1
    cases h2 with
    | noService => cases h1
    | otherMessage h => cases h1; rfl
    | serviceWrite w h => cases h1; exact absurd h hp
    | serviceOverflow o h => cases h1; exact absurd h hp

/-- what happens is what the specification says -/
theorem session_reads (hid : Spec.Fits ident) (h : Host.handleNewClient K ident s = (ok c, s1))
    (hw : s.wcap = none) (hlen : s.inp.length + 4 < 2 ^ 64) :
    ∃ t, (Server.authenticateNewClient K H ident s).2.log = s.log ++ t ∧
      Spec.Session H c.sessionIdentifier False False s.log
        ((Server.authenticateNewClient K H ident s).1.map (·.user)) t ∧
      Spec.With K (Spec.keysOf c.receiveCipher) s1.inp
        ((Server.authenticateNewClient K H ident s).1.map (·.user)) t := by
  obtain ⟨hrun, hst, hroom, hrc, hn, hw1, hlog, hsid⟩ := after_handshake (H := H) hid h hw hlen
  rw [hrun]
  have hc : (startSt c).receive.counter.toNat + 1 < 2 ^ 64 := by rw [hrc, hn]; omega
  have h4 : 4 ≤ (startSt c).pktBuf.length := by rw [hst.pkt]; omega
  rw [← hrc] at hn ⊢
  generalize startSt c = st0 at *
  by_cases hno : ∀ p rest, ¬ Spec.Arrive K (Spec.keysOf st0.receive) st0.receive.counter.toNat [p] s1.inp rest
  · obtain ⟨e, i, h⟩ := recv_nothing hst.pkt hc hno
    rw [M.bind_panic (service_nothing h)]
    refine ⟨[], by simp [hlog], .noService, s1.inp, rfl, fun _ => ?_⟩
    rw [hn] at hno
    exact hno
  have hex : ∃ p rest, Spec.Arrive K (Spec.keysOf st0.receive) st0.receive.counter.toNat [p] s1.inp rest := by
    refine Classical.byContradiction fun hn => hno fun p rest h => hn ⟨p, rest, h⟩
  obtain ⟨p, rest, har⟩ := hex
  obtain ⟨c', buf', s2, hrecv, hinp⟩ := (arrive_iff hst.pkt hc).mpr har
  obtain ⟨hk, hcc⟩ := recv_next h4 hrecv
  rw [hn] at har
  by_cases hp : Spec.ServiceRequested p
  rotate_left
  · obtain ⟨s', h1, h2⟩ := service_other hst hrecv hp
    rw [M.bind_panic h1]
    refine ⟨[.received p], by rw [← hlog]; exact h2, .otherMessage hp, rest, har, ?_⟩
    rintro (h | ⟨h, _⟩) <;> cases h
  obtain ⟨st1, s3, k1, k2, k3, k4, k5, k6, k7, _⟩ := service_run hst hw1 hroom hrecv hp
  rw [M.bind_ok k1, Server.loop]
  obtain ⟨t, u, rest', g1, g2, g3, g4, g5⟩ :=
    loopN_reads (H := H) (K := K) hsid (s3.inp.length + 1) st1 s3 k3 (by omega) k4 k5
  rw [hlog] at k2
  rw [k2] at g1 g2 g3
  have e3 : Spec.payloads ([.received p, .sent Spec.acceptReply] ++ t ++ u) = p :: Spec.payloads (t ++ u) := by
    rw [List.append_assoc, payloads_append]; rfl
  refine ⟨[.received p, .sent Spec.acceptReply] ++ t ++ u, ?_, .served hp g2 g3, rest', ?_, ?_⟩
  · rw [← List.append_assoc, ← List.append_assoc]
    exact g1
  · rw [e3]
    obtain ⟨raw, w', m1, m2, m3, rfl⟩ := har
    refine ⟨raw, w', m1, m2, m3, ?_⟩
    rw [← hk, ← hn, ← hcc, ← hinp, ← k6, ← k7]
    exact g4
  · intro hwait
    rw [e3, List.length_cons, ← hk, ← k7,
      show 3 + ((Spec.payloads (t ++ u)).length + 1) =
        st1.receive.counter.toNat + (Spec.payloads (t ++ u)).length by rw [k7, hcc, hn]; omega]
    refine g5 ?_
    rcases g3.start with ⟨hu, _⟩ | ⟨q, u', e1, _, e2⟩
    · exact hu
    · exfalso
      rcases hwait with hwait | ⟨hr, t0, x, hwait⟩
      · cases hwait
      · have e2 := e2 hr
        subst e2
        rw [e1] at hwait
        have := (List.append_inj' hwait rfl).2
        cases this

/-- the specification allows nothing else -/
theorem session_only (hid : Spec.Fits ident) (h : Host.handleNewClient K ident s = (ok c, s1))
    (hw : s.wcap = none) (hlen : s.inp.length + 4 < 2 ^ 64) {r : R Unit Nat} {t : List Event}
    (hs : Spec.Session H c.sessionIdentifier False False s.log r t)
    (hi : Spec.With K (Spec.keysOf c.receiveCipher) s1.inp r t) :
    (Server.authenticateNewClient K H ident s).1.map (·.user) = r ∧
      (Server.authenticateNewClient K H ident s).2.log = s.log ++ t := by
  obtain ⟨rest, har, hend⟩ := hi
  cases hs with
  | serviceWrite w => exact w.elim
  | serviceOverflow w => exact w.elim
  | noService =>
    obtain ⟨hrun, hst, hroom, hrc, hn, hw1, hlog, hsid⟩ := after_handshake (H := H) hid h hw hlen
    have hc : (startSt c).receive.counter.toNat + 1 < 2 ^ 64 := by rw [hrc, hn]; omega
    have har : s1.inp = rest := har
    obtain ⟨e, i, h⟩ := recv_nothing (s := s1) hst.pkt hc (by rw [hrc, hn, har]; exact hend (.inl rfl))
    rw [hrun, M.bind_panic (service_nothing h)]
    exact ⟨rfl, by simp [hlog]⟩
  | @otherMessage p hp =>
    obtain ⟨hrun, hst, hroom, hrc, hn, hw1, hlog, hsid⟩ := after_handshake (H := H) hid h hw hlen
    have hc : (startSt c).receive.counter.toNat + 1 < 2 ^ 64 := by rw [hrc, hn]; omega
    obtain ⟨c', buf', s2, hrecv, hinp⟩ := (arrive_iff (s := s1) (p := p) (rest := rest) hst.pkt hc).mpr
      (by rw [hrc, hn]; exact har)
    obtain ⟨s', h1, h2⟩ := service_other hst hrecv hp
    rw [hrun, M.bind_panic h1]
    exact ⟨rfl, by rw [← hlog]; exact h2⟩
  | @served p t r u hp hr hf =>
    rw [payloads_append] at har
    obtain ⟨m, hi1, hi2⟩ := har.append
    obtain ⟨st, s2, g1, g2, g3, g4, g5, g6, g7, g8, g9, g10, hsid⟩ := session_run hid h hw hlen hp hr hi1
    have e3 : 3 + (Spec.payloads ([.received p, .sent Spec.acceptReply] ++ t)).length =
        st.receive.counter.toNat := by
      rw [g8, payloads_append]
      simp only [Spec.payloads, List.filterMap_cons, List.filterMap_nil, List.length_append,
        List.length_cons, List.length_nil]
      omega
    have hc : st.receive.counter.toNat + 1 < 2 ^ 64 := by have := g5.2; omega
    rw [e3, ← g7, ← g6] at hi2
    rw [g1, Server.loop_eq K H hsid g3, M.bind_run, ← List.append_assoc, ← List.append_assoc, ← g2]
    rw [← g2] at hf
    rcases hf.start with ⟨rfl, rfl⟩ | ⟨q, u', rfl, e2, _⟩
    · have hi2 : s2.inp = rest := hi2
      have hwait : Spec.ForPacket (err ()) ([.received p, .sent Spec.acceptReply] ++ t ++ []) := by
        refine .inr ⟨rfl, ?_⟩
        rcases hr.last with rfl | ⟨t0, x, rfl⟩
        · exact ⟨[.received p], _, rfl⟩
        · exact ⟨[.received p, .sent Spec.acceptReply] ++ t0, x, by simp⟩
      have hend := hend hwait
      rw [List.append_nil, e3, ← g7, ← hi2] at hend
      obtain ⟨e, i, h⟩ := recv_nothing g3.pkt hc hend
      rw [attempt_nothing h]
      exact ⟨rfl, by simp⟩
    · rw [e2] at hi2
      obtain ⟨c', buf', s3, k1, _⟩ := (arrive_iff g3.pkt hc).mpr hi2
      rcases attempt_step (H := H) hsid g3 k1 g4 g5 with ⟨st', s', t', h1, h2, h3, _⟩ |
        ⟨a, s', t', h1, h2, h3, _⟩ | ⟨s', h1, h2, h3⟩ | ⟨s', t', h1, h2, h3⟩
      · exfalso
        cases r with
        | panic => exact h3.not_panic hf
        | ok v => cases hf with | accepted h => exact h3.not_accepted h
        | err e => cases hf with | malformed h => exact h3.not_malformed h
      · rw [h1]
        cases r with
        | panic => exact absurd hf h3.not_panic
        | ok v =>
          cases hf with
          | accepted h =>
            obtain ⟨rfl, rfl⟩ := h3.unique h
            exact ⟨rfl, h2⟩
        | err e => cases hf with | malformed h => exact absurd h h3.not_malformed
      · rw [h1]
        cases r with
        | panic =>
          rcases hf.panic_cases with hf | ⟨u, v, a, k, hp, _⟩ | ⟨u, v, arg, hp, _⟩
          · exact absurd h3 hf.not_malformed
          · exact absurd hp h3.not_probe
          · exact absurd hp h3.not_attempt
        | ok v => cases hf with | accepted h => exact absurd h3 h.not_malformed
        | err e => cases hf with | malformed h => exact ⟨rfl, h2⟩
      · rw [h1]
        cases r with
        | panic =>
          rw [h3.panic_unique hf] at h2
          exact ⟨rfl, h2⟩
        | ok v => cases hf with | accepted h => exact absurd h3 h.not_panic
        | err e =>
          cases hf with
          | malformed h =>
            rcases h3.panic_cases with hf | ⟨u, v, a, k, hp, _⟩ | ⟨u, v, arg, hp, _⟩
            · exact absurd h hf.not_malformed
            · exact absurd hp h.not_probe
            · exact absurd hp h.not_attempt

end

/-- C97: the specification of the authentication phase is exact. After a handshake, whatever the client
sends, if writes succeed: the session ends with the result `r` and the events `t` if and only if the
specification allows this for the packets the client has sent. -/
theorem C97_exact (K : Crypto) (H : Handlers) (ident : Bytes) (s s1 : IoSt) (c : HostClient)
    (hid : Spec.Fits ident) (h : Host.handleNewClient K ident s = (ok c, s1)) (hw : s.wcap = none)
    (hlen : s.inp.length + 4 < 2 ^ 64) (r : R Unit Nat) (t : List Event) :
    ((Server.authenticateNewClient K H ident s).1.map (·.user) = r ∧
      (Server.authenticateNewClient K H ident s).2.log = s.log ++ t) ↔
    Spec.Session H c.sessionIdentifier False False s.log r t ∧
      Spec.With K (Spec.keysOf c.receiveCipher) s1.inp r t := by
  constructor
  · rintro ⟨rfl, hl⟩
    obtain ⟨t', h1, h2⟩ := session_reads (H := H) hid h hw hlen
    rw [hl] at h1
    rw [List.append_cancel_left h1]
    exact h2
  · rintro ⟨h1, h2⟩
    exact session_only hid h hw hlen h1 h2

/-- C97: every stream is a sequence of packets followed by something that does not start with a packet; so
there is always exactly one such session -/
theorem C97_unique (K : Crypto) (H : Handlers) (ident : Bytes) (s s1 : IoSt) (c : HostClient)
    (hid : Spec.Fits ident) (h : Host.handleNewClient K ident s = (ok c, s1)) (hw : s.wcap = none)
    (hlen : s.inp.length + 4 < 2 ^ 64) :
    ∃ r t, ∀ r' t', (Spec.Session H c.sessionIdentifier False False s.log r' t' ∧
      Spec.With K (Spec.keysOf c.receiveCipher) s1.inp r' t') ↔ r' = r ∧ t' = t := by
  obtain ⟨t, h1, h2, h3⟩ := session_reads (H := H) hid h hw hlen
  refine ⟨(Server.authenticateNewClient K H ident s).1.map (·.user), t, fun r' t' => ⟨fun h' => ?_, ?_⟩⟩
  · obtain ⟨g1, g2⟩ := session_only hid h hw hlen h'.1 h'.2
    rw [h1] at g2
    exact ⟨g1.symm, (List.append_cancel_left g2).symm⟩
  · rintro ⟨rfl, rfl⟩
    exact ⟨h2, h3⟩

/-- the service is requested, and then access without credentials -/
def refusedPayloads : List Bytes :=
  [Spec.encode (.serviceRequest ⟨b! "ssh-userauth"⟩),
   Spec.encode (Spec.request (b! "u") (b! "ssh-connection") .none)]

/-- a client that is refused once, sends two more bytes and closes the connection -/
example : ∃ p0 p1, refusedPayloads = [p0, p1] ∧
    (Server.authenticateNewClient .flat someHandlers (b! "SSH-2.0-nora")
      (clientState refusedPayloads [9, 9])).1.map (·.user) = err () ∧
    (Server.authenticateNewClient .flat someHandlers (b! "SSH-2.0-nora")
      (clientState refusedPayloads [9, 9])).2.log = [] ++ [.received p0, .sent Spec.acceptReply,
      .received p1, .auth (b! "u") (b! "ssh-connection") .none none, .sent Spec.failureReply] := by
  obtain ⟨c, s1, h1, h2, h3, h4⟩ := flat_session refusedPayloads [9, 9]
  have hs := conversation_stream [9, 9] refusedPayloads 3 (by decide)
  rw [← h2, ← h4] at hs
  refine ⟨_, _, rfl, (C97_exact .flat someHandlers _ _ _ _ (by decide) h1 rfl (by decide +kernel) _ _).mpr
    ⟨?_, [9, 9], hs, ?_⟩⟩
  · exact .served (u := []) (legal_encode (show Spec.Fits (b! "ssh-userauth") by decide))
      (.cons (.refused (.none (legal_encode (m := Spec.request (b! "u") (b! "ssh-connection") .none)
        ⟨by decide, by decide, trivial⟩)) (by rfl)) .nil) .lost
  rintro - p rest ⟨raw, w', _, _, h, _⟩
  have := congrArg List.length h
  simp [Spec.sealed] at this
  omega

end Nora
