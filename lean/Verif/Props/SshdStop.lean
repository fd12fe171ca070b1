import Verif.Props.SshdMain
import Verif.Props.Connection
/-
C104: what comes of each stream of bytes that a client may send to the example server (nora_sshd): who gets in,
who is hung up on, and who stops the server, exactly.
-/
namespace Nora
open R Server

/-! ### specification -/

/-- The request `p` is answered by the example server, and the server waits for the next one. -/
inductive Spec.SshdHarmless (E : Ed25519) (sid p : Bytes) : Prop
  /-- a question about an ed25519 key, the answer to which fits the small buffer -/
  | known {user service key} : Probe p user service (b! "ssh-ed25519") key →
    FitsBuf 256 (pkOkReply (b! "ssh-ed25519") key).length → SshdHarmless E sid p
  /-- a question about another key -/
  | unknown {user service algorithm key} : Probe p user service algorithm key →
    algorithm ≠ b! "ssh-ed25519" → SshdHarmless E sid p
  /-- no credentials -/
  | none {user service} : Legal (request user service .none) p → SshdHarmless E sid p
  /-- a signature that is not a valid one with an ed25519 key -/
  | signature {user service algorithm key signature} :
    Legal (request user service (.publicKeySigned algorithm (tagged algorithm key)
      (tagged algorithm signature))) p →
    (signData sid user service algorithm (tagged algorithm key)).length ≤ 1024 →
    (algorithm = b! "ssh-ed25519" →
      ¬ ValidSignature E key (signData sid user service algorithm (tagged algorithm key)) signature) →
    SshdHarmless E sid p

/-- The request `p` is the last one, and this is what comes of it. `number` gives the number of a user. -/
inductive Spec.SshdDecides (E : Ed25519) (number : Bytes → Nat) (sid p : Bytes) : R Unit Nat → Prop
  | malformed : Malformed p → SshdDecides E number sid p (err ())
  /-- not about authentication, a method that is not implemented, or too much to be signed -/
  | fatal : Fatal sid p → SshdDecides E number sid p panic
  /-- a question about an ed25519 key, the answer to which does not fit the small buffer -/
  | tooLarge {user service key} : Probe p user service (b! "ssh-ed25519") key →
    ¬ FitsBuf 256 (pkOkReply (b! "ssh-ed25519") key).length → SshdDecides E number sid p panic
  | password {user service pw} : Legal (request user service (.password pw)) p →
    SshdDecides E number sid p panic
  /-- a valid signature, for a user whose name is not UTF-8 or is -/
  | name {user service key signature} :
    Legal (request user service (.publicKeySigned (b! "ssh-ed25519") (tagged (b! "ssh-ed25519") key)
      (tagged (b! "ssh-ed25519") signature))) p →
    (signData sid user service (b! "ssh-ed25519") (tagged (b! "ssh-ed25519") key)).length ≤ 1024 →
    ValidSignature E key (signData sid user service (b! "ssh-ed25519")
      (tagged (b! "ssh-ed25519") key)) signature → ¬ Utf8 user → SshdDecides E number sid p panic
  | accepted {user service key signature} :
    Legal (request user service (.publicKeySigned (b! "ssh-ed25519") (tagged (b! "ssh-ed25519") key)
      (tagged (b! "ssh-ed25519") signature))) p →
    (signData sid user service (b! "ssh-ed25519") (tagged (b! "ssh-ed25519") key)).length ≤ 1024 →
    ValidSignature E key (signData sid user service (b! "ssh-ed25519")
      (tagged (b! "ssh-ed25519") key)) signature → Utf8 user →
    SshdDecides E number sid p (ok (number user))

/-- What comes of a client that sends `w` after the handshake, sealed with the keys `k`. -/
inductive Spec.SshdAfter (K : Crypto) (E : Ed25519) (number : Bytes → Nat) (sid : Bytes) (k : Spec.Keys)
    (w : Bytes) : R Unit Nat → Prop
  /-- there is no packet -/
  | silent : (∀ p rest, ¬ Arrive K k 3 [p] w rest) → SshdAfter K E number sid k w panic
  /-- it does not ask for the service -/
  | service {p rest} : Arrive K k 3 [p] w rest → ¬ ServiceRequested p → SshdAfter K E number sid k w panic
  /-- it asks for the service; then come requests, and then something that is not a packet -/
  | lost {p qs rest} : ServiceRequested p → (∀ q ∈ qs, SshdHarmless E sid q) →
    Arrive K k 3 (p :: qs) w rest → (∀ q rest', ¬ Arrive K k (4 + qs.length) [q] rest rest') →
    SshdAfter K E number sid k w (err ())
  /-- or then comes the last one -/
  | decided {p qs q rest r} : ServiceRequested p → (∀ q ∈ qs, SshdHarmless E sid q) →
    Arrive K k 3 (p :: (qs ++ [q])) w rest → SshdDecides E number sid q r →
    SshdAfter K E number sid k w r

/-- What comes of a client that sends `inp` to the example server: it gets in as a user (`ok`), it is hung up on
(`err`), or it stops the server (`panic`). -/
inductive Spec.SshdClient (cfg : Config) (E : Ed25519) (number : Bytes → Nat) (rng : Tape) (inp : Bytes) :
    R Unit Nat → Prop
  | failed {w b} : Shakes inp (.fails w b) → SshdClient cfg E number rng inp (err ())
  | panicked {b} : Shakes inp (.panics b) → SshdClient cfg E number rng inp panic
  | session {a sid k k' w r} : Shakes inp (.session a w) → Agreed cfg.K cfg.ident rng a sid k k' →
    SshdAfter cfg.K E number sid k w r → SshdClient cfg E number rng inp r

/-! ### proofs -/

section
variable {E : Ed25519} {number : Bytes → Nat} {sid p : Bytes} {l t : List Event}

theorem sshd_authenticate_err {user service : Bytes} {arg : AuthArg}
    (h : (Sshd.handlers E number).authenticate l user service arg = err ()) :
    Sshd.authenticate E user service arg = err () := by
  simp only [Sshd.handlers] at h
  rcases hx : Sshd.authenticate E user service arg with n | e | _ <;> rw [hx] at h <;>
    simp only [R.map, reduceCtorEq] at h

theorem sshd_authenticate_ok {user service : Bytes} {arg : AuthArg} {u : Nat}
    (h : (Sshd.handlers E number).authenticate l user service arg = ok u) :
    ∃ name, Sshd.authenticate E user service arg = ok name ∧ number name = u := by
  simp only [Sshd.handlers] at h
  rcases hx : Sshd.authenticate E user service arg with n | e | _ <;> rw [hx] at h <;>
    simp only [R.map, reduceCtorEq] at h
  cases h
  exact ⟨n, rfl, rfl⟩

theorem sshd_authenticate_panic {user service : Bytes} {arg : AuthArg}
    (h : (Sshd.handlers E number).authenticate l user service arg = R.panic) :
    Sshd.authenticate E user service arg = R.panic := by
  simp only [Sshd.handlers] at h
  rcases hx : Sshd.authenticate E user service arg with n | e | _ <;> rw [hx] at h <;>
    simp only [R.map, reduceCtorEq] at h

/-- a signature that is not valid is refused, by `C58_authenticated` and `C58_panics` -/
theorem sshd_refuses {user service algorithm key signature message : Bytes}
    (h : algorithm = b! "ssh-ed25519" → ¬ Spec.ValidSignature E key message signature) :
    Sshd.authenticate E user service (.publicKey algorithm key signature message) = err () := by
  rcases hx : Sshd.authenticate E user service (.publicKey algorithm key signature message) with n | e | _
  · obtain ⟨-, -, key', signature', message', h1, h2⟩ := (C58_authenticated ..).mp hx
    cases h1
    exact absurd h2 (h rfl)
  · rfl
  · rcases (C58_panics ..).mp hx with ⟨pw, h1⟩ | ⟨-, key', signature', message', h1, h2⟩
    · cases h1
    · cases h1
      exact absurd h2 (h rfl)

theorem round_harmless (h : Spec.Round (Sshd.handlers E number) sid l t) :
    ∃ p, Spec.payloads t = [p] ∧ Spec.SshdHarmless E sid p := by
  cases h with
  | @known p user service algorithm key h1 h2 h3 =>
    obtain rfl := (C58_probe user service algorithm key).1.mp h2
    exact ⟨p, rfl, .known h1 h3⟩
  | @unknown p user service algorithm key h1 h2 =>
    refine ⟨p, rfl, .unknown h1 fun e => ?_⟩
    rw [show (Sshd.handlers E number).publicKeyExists (l ++ [.received p]) user service algorithm key =
      ok () from (C58_probe user service algorithm key).1.mpr e] at h2
    cases h2
  | @refused p user service arg h1 h2 =>
    refine ⟨p, rfl, ?_⟩
    replace h2 := sshd_authenticate_err h2
    cases h1 with
    | none h1 => exact .none h1
    | password h1 => rw [(C58_panics ..).mpr (.inl ⟨_, rfl⟩)] at h2; cases h2
    | publicKey h1 h3 =>
      refine .signature h1 h3 fun e hv => ?_
      subst e
      by_cases hu : Spec.Utf8 user
      · rw [C92_anyone _ _ _ _ _ _ hu hv] at h2; cases h2
      · rw [(C58_panics ..).mpr (.inr ⟨hu, _, _, _, rfl, hv⟩)] at h2; cases h2

theorem harmless_round (number : Bytes → Nat) (l : List Event) (h : Spec.SshdHarmless E sid p) :
    ∃ t, Spec.Round (Sshd.handlers E number) sid l t ∧ Spec.payloads t = [p] := by
  cases h with
  | @known user service key h1 h2 =>
    exact ⟨_, .known h1 ((C58_probe user service _ key).1.mpr rfl) h2, rfl⟩
  | @unknown user service algorithm key h1 h2 =>
    refine ⟨_, .unknown h1 ?_, rfl⟩
    show Sshd.publicKeyExists user service algorithm key = err ()
    rcases hx : Sshd.publicKeyExists user service algorithm key with _ | _ | _
    · exact absurd ((C58_probe ..).1.mp hx) h2
    · rfl
    · exact absurd hx (C58_probe ..).2
  | none h1 =>
    exact ⟨_, .refused (.none h1) (by
      simp only [Sshd.handlers]
      rw [C58_none]; rfl), rfl⟩
  | signature h1 h2 h3 =>
    exact ⟨_, .refused (.publicKey h1 h2) (by
      simp only [Sshd.handlers]
      rw [sshd_refuses h3]; rfl), rfl⟩

theorem rounds_harmless (h : Spec.Rounds (Sshd.handlers E number) sid l t) :
    ∀ q ∈ Spec.payloads t, Spec.SshdHarmless E sid q := by
  induction h with
  | nil => intro q hq; cases hq
  | cons h1 _ ih =>
    obtain ⟨p, e, hp⟩ := round_harmless h1
    intro q hq
    rw [payloads_append, e, List.mem_append, List.mem_singleton] at hq
    rcases hq with rfl | hq
    · exact hp
    · exact ih q hq

theorem harmless_rounds (number : Bytes → Nat) : ∀ (qs : List Bytes) (l : List Event),
    (∀ q ∈ qs, Spec.SshdHarmless E sid q) →
    ∃ t, Spec.Rounds (Sshd.handlers E number) sid l t ∧ Spec.payloads t = qs := by
  intro qs
  induction qs with
  | nil => exact fun l _ => ⟨[], .nil, rfl⟩
  | cons q qs ih =>
    intro l h
    obtain ⟨t1, g1, g2⟩ := harmless_round number l (h q List.mem_cons_self)
    obtain ⟨t2, g3, g4⟩ := ih (l ++ t1) fun q' hq => h q' (List.mem_cons_of_mem _ hq)
    exact ⟨t1 ++ t2, .cons g1 g3, by rw [payloads_append, g2, g4]; rfl⟩

theorem final_decides {r : R Unit Nat}
    (h : Spec.Final (Sshd.handlers E number) sid False False l r (.received p :: t)) :
    Spec.SshdDecides E number sid p r := by
  cases h with
  | malformed h => exact .malformed h
  | accepted h =>
    cases h with
    | @mk _ user service arg h1 h2 =>
      obtain ⟨name, h3, rfl⟩ := sshd_authenticate_ok h2
      obtain ⟨rfl, hu, key, signature, message, rfl, hv⟩ := (C58_authenticated ..).mp h3
      cases h1 with
      | publicKey h1 h4 => exact .accepted h1 h4 hv hu
  | fatal h => exact .fatal h
  | @tooLarge _ user service algorithm key h1 h2 h3 =>
    obtain rfl := (C58_probe user service algorithm key).1.mp h2
    exact .tooLarge h1 h3
  | @probePanics _ user service algorithm key _ h =>
    exact absurd h (C58_probe user service algorithm key).2
  | authPanics h1 h2 =>
    rcases (C58_panics ..).mp (sshd_authenticate_panic h2) with ⟨pw, rfl⟩ |
      ⟨hu, key, signature, message, rfl, hv⟩
    · cases h1 with
      | password h1 => exact .password h1
    · cases h1 with
      | publicKey h1 h4 => exact .name h1 h4 hv hu
  | roundWrite w => exact w.elim
  | acceptedWrite w => exact w.elim
  | roundOverflow w => exact w.elim
  | acceptedOverflow w => exact w.elim

theorem decides_final {r : R Unit Nat} (l : List Event) (h : Spec.SshdDecides E number sid p r) :
    ∃ t, Spec.Final (Sshd.handlers E number) sid False False l r (.received p :: t) ∧
      Spec.payloads (.received p :: t) = [p] ∧ (r = err () → t = []) := by
  cases h with
  | malformed h => exact ⟨_, .malformed h, rfl, fun _ => rfl⟩
  | fatal h => exact ⟨_, .fatal h, rfl, fun h => by cases h⟩
  | @tooLarge user service key h1 h2 =>
    exact ⟨_, .tooLarge h1 ((C58_probe user service _ key).1.mpr rfl) h2, rfl, fun h => by cases h⟩
  | password h =>
    exact ⟨_, .authPanics (.password h) (by
      simp only [Sshd.handlers]
      rw [(C58_panics ..).mpr (.inl ⟨_, rfl⟩)]; rfl), rfl, fun h => by cases h⟩
  | name h1 h2 h3 h4 =>
    exact ⟨_, .authPanics (.publicKey h1 h2) (by
      simp only [Sshd.handlers]
      rw [(C58_panics ..).mpr (.inr ⟨h4, _, _, _, rfl, h3⟩)]; rfl), rfl, fun h => by cases h⟩
  | accepted h1 h2 h3 h4 =>
    exact ⟨_, .accepted (.mk (.publicKey h1 h2) (by
      simp only [Sshd.handlers]
      rw [C92_anyone _ _ _ _ _ _ h4 h3]; rfl)), rfl, fun h => by cases h⟩

/-- the sessions of the example server -/
theorem sshd_after {K : Crypto} {k : Spec.Keys} {w : Bytes} (l : List Event) (r : R Unit Nat) :
    (∃ t, Spec.Session (Sshd.handlers E number) sid False False l r t ∧ Spec.With K k w r t) ↔
      Spec.SshdAfter K E number sid k w r := by
  constructor
  · rintro ⟨t, h, rest, ha, hn⟩
    cases h with
    | noService =>
      cases ha
      exact .silent (hn (.inl rfl))
    | otherMessage h => exact .service ha h
    | serviceWrite w => exact w.elim
    | serviceOverflow w => exact w.elim
    | @served p t _ u h1 h2 h3 =>
      have hp : Spec.payloads ([Event.received p, .sent Spec.acceptReply] ++ t ++ u) =
          p :: (Spec.payloads t ++ Spec.payloads u) := by
        rw [payloads_append, payloads_append]; rfl
      rw [hp] at ha hn
      rcases h3.start with ⟨rfl, rfl⟩ | ⟨q, t', rfl, e, -⟩
      · simp only [show Spec.payloads [] = [] from rfl, List.append_nil] at ha hn
        refine .lost h1 (rounds_harmless h2) ha fun q rest' => ?_
        have := hn (.inr ⟨rfl, ?_⟩) q rest'
        · rw [List.length_cons, show 3 + ((Spec.payloads t).length + 1) = 4 + (Spec.payloads t).length by
            omega] at this
          exact this
        · rcases h2.last with rfl | ⟨t0, x, rfl⟩
          · exact ⟨[.received p], Spec.acceptReply, rfl⟩
          · exact ⟨[.received p, .sent Spec.acceptReply] ++ t0, x, by simp⟩
      · rw [e] at ha
        exact .decided h1 (rounds_harmless h2) ha (final_decides h3)
  · intro h
    cases h with
    | silent h => exact ⟨[], .noService, w, rfl, fun _ => h⟩
    | @service p rest h1 h2 =>
      refine ⟨_, .otherMessage h2, rest, h1, fun h => ?_⟩
      rcases h with h | ⟨h, -⟩ <;> cases h
    | @lost p qs rest h1 h2 h3 h4 =>
      obtain ⟨t, g1, rfl⟩ := harmless_rounds number qs (l ++ [.received p, .sent Spec.acceptReply]) h2
      have hp : Spec.payloads ([Event.received p, .sent Spec.acceptReply] ++ t ++ []) =
          p :: Spec.payloads t := by
        rw [List.append_nil, payloads_append]; rfl
      refine ⟨_, .served h1 g1 .lost, rest, by rw [hp]; exact h3, fun _ => ?_⟩
      rw [hp, List.length_cons, show 3 + ((Spec.payloads t).length + 1) = 4 + (Spec.payloads t).length by omega]
      exact h4
    | @decided p qs q rest r h1 h2 h3 h4 =>
      obtain ⟨t, g1, rfl⟩ := harmless_rounds number qs (l ++ [.received p, .sent Spec.acceptReply]) h2
      obtain ⟨u, f1, f2, f3⟩ := decides_final (l ++ [.received p, .sent Spec.acceptReply] ++ t) h4
      refine ⟨_, .served h1 g1 f1, rest, ?_, fun h => ?_⟩
      · rw [payloads_append, payloads_append, f2]
        exact h3
      · exfalso
        rcases h with h | ⟨h, t0, x, e⟩
        · simp at h
        · rw [f3 h] at e
          rw [List.append_assoc] at e
          have e' := congrArg List.getLast? e
          rw [← List.append_assoc, List.getLast?_concat, List.getLast?_concat] at e'
          cases e'

end

section
variable {G : KeyGen} {E : Ed25519} {number : Bytes → Nat} {S : Sshd.Sys} {entropy : Nat → Byte} {bound : Bool}
  {cfg : Config}

/-- C104: what comes of a client of the example server, exactly, for every stream of bytes (if writes to it
succeed): it gets in as a user, it is hung up on, or it stops the server, if and only if the specification says
so for the bytes it sends. -/
theorem C104_exact (hm : Sshd.main G E number S entropy bound = ok cfg) (s : IoSt) (hw : s.wcap = none)
    (hlen : s.inp.length + 4 < 2 ^ 64) (r : R Unit Nat) :
    (Server.authenticateNewClient cfg.K cfg.H cfg.ident s).1.map (·.user) = r ↔
      Spec.SshdClient cfg E number s.rng s.inp r := by
  have hid := main_fits hm
  have hH : cfg.H = Sshd.handlers E number := by rw [main_ok hm]
  obtain ⟨x, sent, h1, -, h2⟩ := C99_outcome cfg.K cfg.ident s hid hw
  rcases hx : Host.handleNewClient cfg.K cfg.ident s with ⟨res, s1⟩
  rw [hx] at h2
  cases x with
  | fails w b =>
    obtain ⟨⟨e, h2, -⟩, -⟩ := h2
    simp only at h2
    subst h2
    have he : (Server.authenticateNewClient cfg.K cfg.H cfg.ident s).1.map (·.user) = err () := by
      rw [authenticateNewClient, M.bind_err (by rw [M.mapErr_run, hx]; rfl)]; rfl
    rw [he]
    constructor
    · rintro rfl; exact .failed h1
    · intro h
      cases h with
      | failed => rfl
      | panicked h => cases C99_one_outcome _ _ _ h h1
      | session h => cases C99_one_outcome _ _ _ h h1
  | panics b =>
    obtain ⟨h2, -⟩ := h2
    simp only at h2
    subst h2
    have he : (Server.authenticateNewClient cfg.K cfg.H cfg.ident s).1.map (·.user) = R.panic := by
      rw [authenticateNewClient, M.bind_panic (by rw [M.mapErr_run, hx]; rfl)]; rfl
    rw [he]
    constructor
    · rintro rfl; exact .panicked h1
    · intro h
      cases h with
      | failed h => cases C99_one_outcome _ _ _ h h1
      | panicked h => rfl
      | session h => cases C99_one_outcome _ _ _ h h1
  | session a rest =>
    obtain ⟨h3, -, c, h2, h4, -⟩ := h2
    simp only at h2 h3
    subst h2 h3
    have key : ∀ r t, _ ↔ _ := C97_exact cfg.K cfg.H cfg.ident s s1 c hid hx hw hlen
    rw [hH] at key ⊢
    obtain ⟨t, ht, -⟩ := authenticate_session (Sshd.handlers E number) hid hx
    constructor
    · intro h
      exact .session h1 h4 ((sshd_after s.log r).mp ⟨t, (key r t).mp ⟨h, ht⟩⟩)
    · intro h
      cases h with
      | failed h => cases C99_one_outcome _ _ _ h h1
      | panicked h => cases C99_one_outcome _ _ _ h h1
      | session g1 g2 g3 =>
        cases C99_one_outcome _ _ _ g1 h1
        obtain ⟨rfl, rfl, rfl⟩ := g2.unique h4
        obtain ⟨t, g4⟩ := (sshd_after s.log r).mpr g3
        exact ((key r t).mpr g4).1

/-- C104: every stream has exactly one outcome -/
theorem C104_one_outcome (hm : Sshd.main G E number S entropy bound = ok cfg) (rng : Tape) (inp : Bytes)
    (hlen : inp.length + 4 < 2 ^ 64) :
    ∃ r, ∀ r', Spec.SshdClient cfg E number rng inp r' ↔ r' = r :=
  ⟨_, fun r' => ((C104_exact hm ⟨inp, [], none, rng, []⟩ rfl hlen r').symm).trans eq_comm⟩

/-- C104: a client stops the server if the specification says so, once it has had as many turns as it sent
bytes, and three -/
theorem C104_stops (hm : Sshd.main G E number S entropy bound = ok cfg) (ops : List Op) (s : IoSt)
    (hr : (run cfg ops).running = true) (hw : s.wcap = none) (hlen : s.inp.length + 4 < 2 ^ 64)
    (h : Spec.SshdClient cfg E number s.rng s.inp R.panic)
    (as : List Client.Step) (has : s.inp.length + 3 ≤ as.length) (post : List Op) :
    (run cfg (ops ++ .accept s :: as.map (.poll (run cfg ops).conns.length) ++ post)).running = false := by
  refine C94_stops cfg (main_fits hm) ops s hr ?_ as has post
  have := (C104_exact hm s hw hlen R.panic).mpr h
  rcases hx : (authenticateNewClient cfg.K cfg.H cfg.ident s).1 with a | e | _ <;> rw [hx] at this <;>
    simp only [R.map, reduceCtorEq] at this

/-- C104: and only then: if the server has stopped, then `accept` has failed, or the specification says so of
some client, or of some client it says that it gets in, and its session panics -/
theorem C104_stopped (hm : Sshd.main G E number S entropy bound = ok cfg) (ops : List Op)
    (hw : ∀ i s as, Spec.own i ops = some (s, as) → s.wcap = none ∧ s.inp.length + 4 < 2 ^ 64)
    (h : (run cfg ops).running = false) :
    .acceptPanics ∈ ops ∨ ∃ i s as, Spec.own i ops = some (s, as) ∧
      (Spec.SshdClient cfg E number s.rng s.inp R.panic ∨
       ∃ a s1 pre sched post, Spec.SshdClient cfg E number s.rng s.inp (ok a.user) ∧
        authenticateNewClient cfg.K cfg.H cfg.ident s = (ok a, s1) ∧ as = pre ++ sched ++ post ∧
        (Client.steps cfg.K cfg.C a.user (Client.start a) sched s1).1 = R.panic) := by
  rcases C51_stopped_by cfg (main_fits hm) ops h with h1 | ⟨i, s, as, h1, h2⟩
  · exact .inl h1
  obtain ⟨w1, w2⟩ := hw i s as h1
  refine .inr ⟨i, s, as, h1, ?_⟩
  rcases h2 with h2 | ⟨pre, sched, post, a, s1, h2, h3, h4⟩
  · exact .inl ((C104_exact hm s w1 w2 _).mp (by rw [h2]; rfl))
  · exact .inr ⟨a, s1, pre, sched, post, (C104_exact hm s w1 w2 _).mp (by rw [h3]; rfl), h3, h2, h4⟩

end

/-! examples -/

/-- the example server, for the examples -/
def sshdConfig : Config :=
  ⟨.flat, Sshd.handlers someEd25519 List.length, Sshd.connHandlers someSys, b! "SSH-2.0-nora_ssh example"⟩

theorem sshdConfig_main :
    Sshd.main flatKeyGen someEd25519 List.length someSys (fun _ => 0) true = ok sshdConfig := rfl

theorem sshdClient_of {ps : List Bytes} {rest : Bytes} {r : R Unit Nat}
    (h : Spec.SshdAfter .flat someEd25519 List.length (List.replicate 32 7) flatKeys
      (conversation 3 ps ++ rest) r) :
    Spec.SshdClient sshdConfig someEd25519 List.length (clientState ps rest).rng (clientState ps rest).inp r := by
  obtain ⟨c, s1, h1, h2, h3, h4⟩ := main_session ps rest
  obtain ⟨a, g1, g2⟩ := handshake_shakes (cfg := sshdConfig) (by decide) rfl h1
  rw [h2, h3] at g2
  rw [h4] at g1
  exact .session g1 g2 h

/-- a client that first asks without credentials -/
def noCredentials : Bytes := Spec.encode (Spec.request (b! "u") (b! "ssh-connection") .none)

theorem noCredentials_harmless {sid : Bytes} : Spec.SshdHarmless someEd25519 sid noCredentials :=
  .none (legal_encode ⟨by decide, by decide, trivial⟩)

-- a client that hangs up after the handshake stops the server
example : Spec.SshdClient sshdConfig someEd25519 List.length (clientState [] []).rng (clientState [] []).inp
    R.panic := by
  refine sshdClient_of (.silent ?_)
  rintro p rest ⟨raw, w', -, -, h, -⟩
  have := congrArg List.length h
  simp [conversation, Spec.sealed] at this
  omega

-- one that then asks for the service and without credentials, and then hangs up, does not
example : Spec.SshdClient sshdConfig someEd25519 List.length
    (clientState [Spec.encode (.serviceRequest ⟨b! "ssh-userauth"⟩), noCredentials] []).rng
    (clientState [Spec.encode (.serviceRequest ⟨b! "ssh-userauth"⟩), noCredentials] []).inp (err ()) := by
  refine sshdClient_of (.lost (rest := []) (legal_encode (show Spec.Fits _ by decide)) (qs := [noCredentials]) ?_
    (conversation_stream [] [Spec.encode (.serviceRequest ⟨b! "ssh-userauth"⟩), noCredentials] 3
      (by decide +kernel)) ?_)
  · intro q hq
    rw [List.mem_singleton] at hq
    rw [hq]
    exact noCredentials_harmless
  · rintro p rest ⟨raw, w', -, -, h, -⟩
    have := congrArg List.length h
    simp [Spec.sealed] at this
    omega

-- with a password it does
example : Spec.SshdClient sshdConfig someEd25519 List.length
    (clientState [Spec.encode (.serviceRequest ⟨b! "ssh-userauth"⟩), noCredentials,
      Spec.encode (Spec.request (b! "u") (b! "ssh-connection") (.password (b! "pw")))] [1, 2]).rng
    (clientState [Spec.encode (.serviceRequest ⟨b! "ssh-userauth"⟩), noCredentials,
      Spec.encode (Spec.request (b! "u") (b! "ssh-connection") (.password (b! "pw")))] [1, 2]).inp R.panic := by
  refine sshdClient_of (.decided (rest := [1, 2]) (legal_encode (show Spec.Fits _ by decide))
    (qs := [noCredentials]) (q := Spec.encode (Spec.request (b! "u") (b! "ssh-connection")
      (.password (b! "pw")))) ?_
    (conversation_stream [1, 2] [Spec.encode (.serviceRequest ⟨b! "ssh-userauth"⟩), noCredentials,
      Spec.encode (Spec.request (b! "u") (b! "ssh-connection") (.password (b! "pw")))] 3
      (by decide +kernel)) ?_)
  · intro q hq
    rw [List.mem_singleton] at hq
    rw [hq]
    exact noCredentials_harmless
  · exact .password (legal_encode ⟨by decide, by decide, show Spec.Fits _ by decide⟩)

-- and with a signature it gets in
example : Spec.SshdClient sshdConfig someEd25519 List.length
    (clientState [Spec.encode (.serviceRequest ⟨b! "ssh-userauth"⟩), noCredentials, sshdRequest] [9]).rng
    (clientState [Spec.encode (.serviceRequest ⟨b! "ssh-userauth"⟩), noCredentials, sshdRequest] [9]).inp
    (ok 4) := by
  refine sshdClient_of (.decided (rest := [9]) (legal_encode (show Spec.Fits _ by decide))
    (qs := [noCredentials]) (q := sshdRequest) ?_
    (conversation_stream [9] [Spec.encode (.serviceRequest ⟨b! "ssh-userauth"⟩), noCredentials,
      sshdRequest] 3 (by decide +kernel)) ?_)
  · intro q hq
    rw [List.mem_singleton] at hq
    rw [hq]
    exact noCredentials_harmless
  · exact .accepted (number := List.length) (user := b! "root") (service := b! "ssh-connection")
      (key := List.replicate 32 1)
      (legal_encode ⟨by decide, by decide, by decide, by decide, by decide +kernel⟩) (by decide +kernel)
      ⟨by decide +kernel, by decide +kernel, by decide +kernel⟩ (Utf8.valid_iff.mp (by decide +kernel))

end Nora
