import Verif.Lemmas.Auth
/-
What the authentication loop does with a given packet, and with a given stream of packets.
-/
namespace Nora
open R

/-! ### the log only grows -/

/-- the computation appends to the log -/
def Grows {ε α : Type} (x : M ε α) : Prop := ∀ s, ∃ t, (x s).2.log = s.log ++ t

section grows
variable {ε ε' α β : Type}

theorem Tame.grows {x : M ε α} (h : Tame x) : Grows x := fun s => ⟨[], by rw [(h s).1]; simp⟩

theorem Grows.bind {x : M ε α} {f : α → M ε β} (hx : Grows x) (hf : ∀ a, Grows (f a)) :
    Grows (x >>= f) := by
  intro s
  obtain ⟨t, ht⟩ := hx s
  rw [M.bind_run]
  revert ht
  rcases x s with ⟨r, s'⟩
  intro ht
  cases r with
  | ok a =>
    obtain ⟨u, hu⟩ := hf a s'
    exact ⟨t ++ u, by rw [← List.append_assoc, ← ht]; exact hu⟩
  | err e => exact ⟨t, ht⟩
  | panic => exact ⟨t, ht⟩

theorem Grows.mapErr {x : M ε α} (hx : Grows x) (f : ε → ε') : Grows (x.mapErr f) := hx
theorem Grows.unwrap {x : M ε α} (hx : Grows x) : Grows (x.unwrap : M ε' α) := hx
theorem Grows.lift (x : R ε α) : Grows (M.lift x) := (Tame.lift x).grows
theorem Grows.pure (x : α) : Grows (Pure.pure x : M ε α) := (Tame.pure x).grows
theorem Grows.panic : Grows (M.panic : M ε α) := fun _ => ⟨[], by simp [M.panic]⟩
theorem Grows.logEvent (e : Event) : Grows (M.logEvent e : M ε Unit) :=
  fun s => ⟨[e], by rw [M.logEvent_run]⟩

end grows

theorem Grows.out (K : Crypto) (c : ChaCha) (buf : Bytes)
    (f : Bytes → R OutError (Nat × Bytes)) : Grows (Out.send K c buf f) := by
  unfold Out.send
  exact .bind (Tame.withRng _).grows fun _ => .bind (.lift _) fun _ => .bind (.lift _) fun _ =>
    .bind (.lift _) fun _ => .bind (.logEvent _) fun _ => .bind (.mapErr (Tame.writeAll _).grows _)
    fun _ => .pure _

theorem Grows.send (K : Crypto) (c : ChaCha) (buf : Bytes) (m : Message) :
    Grows (Server.send K c buf m) := .unwrap (.out _ _ _ _)

theorem Grows.publicKeyExists (H : Handlers) (u v a k : Bytes) :
    Grows (Server.publicKeyExists H u v a k) := by
  intro s
  rw [Server.publicKeyExists_run]
  cases H.publicKeyExists s.log u v a k
  · exact ⟨_, rfl⟩
  · exact ⟨_, rfl⟩
  · exact ⟨[], by simp⟩

theorem Grows.authenticate (H : Handlers) (u v : Bytes) (a : AuthArg) :
    Grows (Server.authenticate H u v a) := by
  intro s
  rw [Server.authenticate_run]
  cases H.authenticate s.log u v a
  · exact ⟨_, rfl⟩
  · exact ⟨_, rfl⟩
  · exact ⟨[], by simp⟩

theorem Grows.probe (K : Crypto) (H : Handlers) (st : AuthSt) (ua : Auth.Request) (a b : Bytes) :
    Grows (Server.probe K H st ua a b) := by
  unfold Server.probe
  exact .bind (.lift _) fun _ => .bind (.publicKeyExists _ _ _ _ _) fun _ => .bind (.send _ _ _ _) fun _ =>
    .pure _

theorem Grows.check (K : Crypto) (H : Handlers) (sid : Bytes) (st : AuthSt) (ua : Auth.Request) :
    Grows (Server.check K H sid st ua) := by
  unfold Server.check
  refine .bind (.lift _) fun _ => .bind (.authenticate _ _ _ _) fun r => ?_
  cases r with
  | some u => exact .bind (.send _ _ _ _) fun _ => .pure _
  | none => exact .bind (.send _ _ _ _) fun _ => .pure _

/-- what `In.recv` logs when it succeeds -/
theorem In.recv_log {K : Crypto} {c c' : ChaCha} {buf buf' p : Bytes} {s s1 : IoSt}
    (h4 : 4 ≤ buf.length) (h : In.recv K c buf s = (ok (p, c', buf'), s1)) :
    s1 = { s with inp := s1.inp, log := s.log ++ [.received p] } := by
  rcases In.recv_outcome K c buf s h4 with ⟨e, i, g⟩ | ⟨_, i, g⟩ | ⟨_, q, c2, buf2, i, g, _⟩
  · rw [g] at h; cases h
  · rw [g] at h; cases h
  · rw [g] at h; cases h; rfl

theorem attempt_starts {K : Crypto} {H : Handlers} {sid : Bytes} {st : AuthSt} {c' : ChaCha}
    {buf' p : Bytes} {s s1 : IoSt} (hst : st.Ok)
    (h : In.recv K st.receive st.pktBuf s = (ok (p, c', buf'), s1)) :
    ∃ t, (Server.attempt K H sid st s).2.log = s.log ++ .received p :: t := by
  have hl := congrArg IoSt.log (In.recv_log (by rw [hst.pkt]; omega) h)
  simp only at hl
  rw [Server.attempt, M.bind_ok (a := (p, c', buf')) (s' := s1) (by rw [M.mapErr_run, h]; rfl)]
  have : ∀ {x : M Unit (AuthSt ⊕ Authenticated)}, Grows x →
      ∃ t, (x s1).2.log = s.log ++ .received p :: t := by
    intro x hx
    obtain ⟨t, ht⟩ := hx s1
    exact ⟨t, by rw [ht, hl]; simp⟩
  refine this (.bind (.lift _) fun _ => .bind (.lift _) fun _ => .bind (.lift _) fun ua => ?_)
  split
  · exact .bind (.probe _ _ _ _ _ _) fun _ => .pure _
  · exact .check _ _ _ _ _

theorem service_starts {K : Crypto} {st : AuthSt} {c' : ChaCha}
    {buf' p : Bytes} {s s1 : IoSt} (hst : st.Ok)
    (h : In.recv K st.receive st.pktBuf s = (ok (p, c', buf'), s1)) :
    ∃ t, (Server.service K st s).2.log = s.log ++ .received p :: t := by
  have hl := congrArg IoSt.log (In.recv_log (by rw [hst.pkt]; omega) h)
  simp only at hl
  rw [Server.service, M.bind_ok (a := (p, c', buf')) (s' := s1) (by rw [M.unwrap_run, h]; rfl)]
  have : ∀ {x : M Unit AuthSt}, Grows x →
      ∃ t, (x s1).2.log = s.log ++ .received p :: t := by
    intro x hx
    obtain ⟨t, ht⟩ := hx s1
    exact ⟨t, by rw [ht, hl]; simp⟩
  refine this (.bind (.lift _) fun _ => .bind (.lift _) fun srv => ?_)
  split_ifs
  · exact .bind (.send _ _ _ _) fun _ => .pure _
  · exact .panic

/-! ### verdicts -/

theorem Spec.Legal.unique {m m' : Message} {p : Bytes} (hm : Spec.isReply m = false)
    (hm' : Spec.isReply m' = false) (h : Spec.Legal m p) (h' : Spec.Legal m' p) : m = m' := by
  have a := (Message.parse_iff hm).mpr h
  have b := (Message.parse_iff hm').mpr h'
  rw [a] at b
  exact R.ok.inj b

theorem Spec.Legal.request_unique {u v u' v' : Bytes} {m m' : Auth.Method} {p : Bytes}
    (h : Spec.Legal (Spec.request u v m) p) (h' : Spec.Legal (Spec.request u' v' m') p) :
    u = u' ∧ v = v' ∧ m = m' := by
  have := Spec.Legal.unique rfl rfl h h'
  simpa [Spec.request] using this

theorem Spec.Legal.parse {u v p : Bytes} {m : Auth.Method} (h : Spec.Legal (Spec.request u v m) p) :
    Message.parse p = ok (Spec.request u v m) := (Message.parse_iff rfl).mpr h

theorem tagged_inj {a k k' : Bytes} (h : Spec.tagged a k = Spec.tagged a k') (hk : Spec.Fits k)
    (hk' : Spec.Fits k') : k = k' := by
  have := List.append_cancel_left h
  have := str_app_inj hk hk' (by simpa using this : Spec.str k ++ [] = Spec.str k' ++ [])
  exact this.1

theorem tagged_fits {a k : Bytes} (h : Spec.Fits (Spec.tagged a k)) : Spec.Fits k := by
  have : k.length ≤ (Spec.tagged a k).length := by
    simp only [Spec.tagged, List.length_append, str_length]; omega
  exact Nat.lt_of_le_of_lt this h

/-- a request says who is to be authenticated for what, and how -/
theorem Spec.Attempt.unique {sid p u v u' v' : Bytes} {arg arg' : AuthArg}
    (h : Spec.Attempt sid p u v arg) (h' : Spec.Attempt sid p u' v' arg') :
    u = u' ∧ v = v' ∧ arg = arg' := by
  cases h with
  | none h =>
    cases h' with
    | none h' => obtain ⟨a, b, c⟩ := h.request_unique h'; exact ⟨a, b, rfl⟩
    | password h' => cases (h.request_unique h').2.2
    | publicKey h' hlen' => cases (h.request_unique h').2.2
  | password h =>
    cases h' with
    | none h' => cases (h.request_unique h').2.2
    | password h' =>
      obtain ⟨a, b, c⟩ := h.request_unique h'
      cases c
      exact ⟨a, b, rfl⟩
    | publicKey h' hlen' => cases (h.request_unique h').2.2
  | publicKey h hlen =>
    cases h' with
    | none h' => cases (h.request_unique h').2.2
    | password h' => cases (h.request_unique h').2.2
    | publicKey h' hlen' =>
      obtain ⟨a, b, c⟩ := h.request_unique h'
      simp only [Auth.Method.publicKeySigned.injEq] at c
      obtain ⟨c1, c2, c3⟩ := c
      subst a b c1
      obtain ⟨_, _, _, f1, f2⟩ := h.fits
      obtain ⟨_, _, _, f3, f4⟩ := h'.fits
      have e1 := tagged_inj c2 (tagged_fits f1) (tagged_fits f3)
      have e2 := tagged_inj c3 (tagged_fits f2) (tagged_fits f4)
      subst e1 e2
      exact ⟨rfl, rfl, rfl⟩

theorem Spec.Probe.unique {p u v a k u' v' a' k' : Bytes} (h : Spec.Probe p u v a k)
    (h' : Spec.Probe p u' v' a' k') : u = u' ∧ v = v' ∧ a = a' ∧ k = k' := by
  obtain ⟨e1, e2, e3⟩ := Spec.Legal.request_unique h h'
  simp only [Auth.Method.publicKeyBlob.injEq] at e3
  obtain ⟨e3, e4⟩ := e3
  subst e3
  obtain ⟨_, _, _, f1⟩ := Spec.Legal.fits h
  obtain ⟨_, _, _, f2⟩ := Spec.Legal.fits h'
  exact ⟨e1, e2, rfl, tagged_inj e4 (tagged_fits f1) (tagged_fits f2)⟩

section disjoint
variable {sid p u v : Bytes}

/-- the method of the request in a payload -/
theorem Spec.Attempt.legal {arg : AuthArg} (h : Spec.Attempt sid p u v arg) :
    ∃ m, Spec.Legal (Spec.request u v m) p ∧ Spec.unimplemented m = false ∧
      (∀ a b, m ≠ .publicKeyBlob a b) ∧
      (∀ a k x, m = .publicKeySigned a k x → ∃ key s, k = Spec.tagged a key ∧
        x = Spec.tagged a s ∧ (Spec.signData sid u v a k).length ≤ 1024) := by
  cases h with
  | none h => exact ⟨_, h, rfl, by simp, by simp⟩
  | password h => exact ⟨_, h, rfl, by simp, by simp⟩
  | publicKey h hl =>
    refine ⟨_, h, rfl, by simp, ?_⟩
    intro a k x e
    cases e
    exact ⟨_, _, rfl, rfl, hl⟩

theorem Spec.Attempt.not_probe {arg : AuthArg} (h : Spec.Attempt sid p u v arg) {u' v' a k : Bytes} :
    ¬ Spec.Probe p u' v' a k := by
  intro hp
  obtain ⟨m, h1, _, h2, _⟩ := h.legal
  obtain ⟨_, _, e⟩ := h1.request_unique hp
  exact h2 _ _ e

theorem Spec.Malformed.not_attempt (h : Spec.Malformed p) {arg : AuthArg} :
    ¬ Spec.Attempt sid p u v arg := by
  intro ha
  obtain ⟨m, h1, _, h2, h3⟩ := ha.legal
  cases h with
  | unparsable h => exact h _ (reads_iff.mp h1.parse)
  | notRequest h hne =>
    replace h := reads_iff.mpr ⟨rfl, h⟩
    rw [h1.parse] at h
    cases h
    exact hne _ rfl
  | blob h hk => exact h2 _ _ (h1.request_unique h).2.2
  | key h hk =>
    obtain ⟨key, _, e, _⟩ := h3 _ _ _ (h1.request_unique h).2.2
    exact hk key e
  | signature h hk =>
    obtain ⟨_, s, _, e, _⟩ := h3 _ _ _ (h1.request_unique h).2.2
    exact hk s e

theorem Spec.Malformed.not_probe (h : Spec.Malformed p) {a k : Bytes} : ¬ Spec.Probe p u v a k := by
  intro h1
  cases h with
  | unparsable h => exact h _ (reads_iff.mp (Spec.Legal.parse h1))
  | notRequest h hne =>
    replace h := reads_iff.mpr ⟨rfl, h⟩
    rw [Spec.Legal.parse h1] at h
    cases h
    exact hne _ rfl
  | blob h hk =>
    have := (Spec.Legal.request_unique h1 h).2.2
    cases this
    exact hk _ rfl
  | key h hk => cases (Spec.Legal.request_unique h1 h).2.2
  | signature h hk => cases (Spec.Legal.request_unique h1 h).2.2

theorem Spec.Fatal.not_attempt (h : Spec.Fatal sid p) {arg : AuthArg} :
    ¬ Spec.Attempt sid p u v arg := by
  intro ha
  obtain ⟨m, h1, hu, h2, h3⟩ := ha.legal
  cases h with
  | notUserAuth h hne =>
    replace h := reads_iff.mpr h
    rw [h1.parse] at h
    cases h
    exact hne _ rfl
  | method h hm =>
    rw [(h1.request_unique h).2.2, hm] at hu
    cases hu
  | tooLong h hl =>
    obtain ⟨e1, e2, e3⟩ := h1.request_unique h
    obtain ⟨_, _, _, _, hl'⟩ := h3 _ _ _ e3
    rw [e1, e2] at hl'
    omega

theorem Spec.Fatal.not_probe (h : Spec.Fatal sid p) {a k : Bytes} : ¬ Spec.Probe p u v a k := by
  intro h1
  cases h with
  | notUserAuth h hne =>
    replace h := reads_iff.mpr h
    rw [Spec.Legal.parse h1] at h
    cases h
    exact hne _ rfl
  | method h hm =>
    rw [← (Spec.Legal.request_unique h1 h).2.2] at hm
    cases hm
  | tooLong h hl => cases (Spec.Legal.request_unique h1 h).2.2

theorem Spec.Fatal.not_malformed (h : Spec.Fatal sid p) : ¬ Spec.Malformed p := by
  intro hm
  cases h with
  | notUserAuth h hne =>
    replace h := reads_iff.mpr h
    cases hm with
    | unparsable h' => exact h' _ (reads_iff.mp h)
    | notRequest h' _ => replace h' := reads_iff.mpr ⟨rfl, h'⟩; rw [h] at h'; cases h'; exact hne _ rfl
    | blob h' _ => rw [h'.parse] at h; cases h; exact hne _ rfl
    | key h' _ => rw [h'.parse] at h; cases h; exact hne _ rfl
    | signature h' _ => rw [h'.parse] at h; cases h; exact hne _ rfl
  | method h hu =>
    cases hm with
    | unparsable h' => exact h' _ (reads_iff.mp h.parse)
    | notRequest h' hne => replace h' := reads_iff.mpr ⟨rfl, h'⟩; rw [h.parse] at h'; cases h'; exact hne _ rfl
    | blob h' _ => rw [(h.request_unique h').2.2] at hu; cases hu
    | key h' _ => rw [(h.request_unique h').2.2] at hu; cases hu
    | signature h' _ => rw [(h.request_unique h').2.2] at hu; cases hu
  | tooLong h hl =>
    cases hm with
    | unparsable h' => exact h' _ (reads_iff.mp h.parse)
    | notRequest h' hne => replace h' := reads_iff.mpr ⟨rfl, h'⟩; rw [h.parse] at h'; cases h'; exact hne _ rfl
    | blob h' _ => cases (h.request_unique h').2.2
    | key h' hk =>
      have := (h.request_unique h').2.2
      simp only [Auth.Method.publicKeySigned.injEq] at this
      obtain ⟨rfl, e, _⟩ := this
      exact hk _ e.symm
    | signature h' hk =>
      have := (h.request_unique h').2.2
      simp only [Auth.Method.publicKeySigned.injEq] at this
      obtain ⟨rfl, _, e⟩ := this
      exact hk _ e.symm

end disjoint

/-! ### the history determines what happens next -/

section determined
variable {H : Handlers} {sid p : Bytes} {l t t' : List Event}

theorem Spec.Round.unique (h : Spec.Round H sid l (.received p :: t))
    (h' : Spec.Round H sid l (.received p :: t')) : t = t' := by
  cases h with
  | known h1 h2 _ =>
    cases h' with
    | known h1' h2' _ => obtain ⟨rfl, rfl, rfl, rfl⟩ := h1.unique h1'; rfl
    | unknown h1' h2' =>
      obtain ⟨rfl, rfl, rfl, rfl⟩ := h1.unique h1'
      rw [h2] at h2'; cases h2'
    | refused h1' h2' => exact absurd h1 h1'.not_probe
  | unknown h1 h2 =>
    cases h' with
    | known h1' h2' _ =>
      obtain ⟨rfl, rfl, rfl, rfl⟩ := h1.unique h1'
      rw [h2] at h2'; cases h2'
    | unknown h1' h2' => obtain ⟨rfl, rfl, rfl, rfl⟩ := h1.unique h1'; rfl
    | refused h1' h2' => exact absurd h1 h1'.not_probe
  | refused h1 h2 =>
    cases h' with
    | known h1' h2' _ => exact absurd h1' h1.not_probe
    | unknown h1' h2' => exact absurd h1' h1.not_probe
    | refused h1' h2' => obtain ⟨rfl, rfl, rfl⟩ := h1.unique h1'; rfl

theorem Spec.Round.not_accepted {u : Nat} (h : Spec.Round H sid l (.received p :: t)) :
    ¬ Spec.Accepted H sid l u (.received p :: t') := by
  intro h'
  cases h' with
  | mk h1' h2' =>
    cases h with
    | known h1 h2 _ => exact absurd h1 h1'.not_probe
    | unknown h1 h2 => exact absurd h1 h1'.not_probe
    | refused h1 h2 =>
      obtain ⟨rfl, rfl, rfl⟩ := h1.unique h1'
      rw [h2] at h2'; cases h2'

theorem Spec.Round.not_malformed (h : Spec.Round H sid l (.received p :: t)) :
    ¬ Spec.Malformed p := by
  intro h'
  cases h with
  | known h1 h2 _ => exact h'.not_probe h1
  | unknown h1 h2 => exact h'.not_probe h1
  | refused h1 h2 => exact h'.not_attempt h1

theorem Spec.Accepted.unique {u u' : Nat} (h : Spec.Accepted H sid l u (.received p :: t))
    (h' : Spec.Accepted H sid l u' (.received p :: t')) : t = t' ∧ u = u' := by
  cases h with
  | mk h1 h2 =>
    cases h' with
    | mk h1' h2' =>
      obtain ⟨rfl, rfl, rfl⟩ := h1.unique h1'
      rw [h2] at h2'
      cases h2'
      exact ⟨rfl, rfl⟩

theorem Spec.Accepted.not_malformed {u : Nat} (h : Spec.Accepted H sid l u (.received p :: t)) :
    ¬ Spec.Malformed p := by
  intro h'
  cases h with
  | mk h1 h2 => exact h'.not_attempt h1

/-- a panic, other than for a failed write or because a counter is exhausted, is not the beginning of
something else -/
theorem Spec.Final.panic_cases (h : Spec.Final H sid False False l R.panic (.received p :: t)) :
    Spec.Fatal sid p ∨
    (∃ u v a k, Spec.Probe p u v a k ∧ ((H.publicKeyExists (l ++ [.received p]) u v a k = ok () ∧
      ¬ Spec.FitsBuf 256 (Spec.pkOkReply a k).length) ∨
      H.publicKeyExists (l ++ [.received p]) u v a k = R.panic)) ∨
    (∃ u v arg, Spec.Attempt sid p u v arg ∧
      H.authenticate (l ++ [.received p]) u v arg = R.panic) := by
  cases h with
  | fatal h => exact .inl h
  | tooLarge h1 h2 h3 => exact .inr (.inl ⟨_, _, _, _, h1, .inl ⟨h2, h3⟩⟩)
  | probePanics h1 h2 => exact .inr (.inl ⟨_, _, _, _, h1, .inr h2⟩)
  | authPanics h1 h2 => exact .inr (.inr ⟨_, _, _, h1, h2⟩)
  | roundWrite w => exact absurd w id
  | acceptedWrite w => exact absurd w id
  | roundOverflow w => exact absurd w id
  | acceptedOverflow w => exact absurd w id

theorem Spec.Round.not_panic (h : Spec.Round H sid l (.received p :: t)) :
    ¬ Spec.Final H sid False False l R.panic (.received p :: t') := by
  intro h'
  rcases h'.panic_cases with hf | ⟨u, v, a, k, hp, hk⟩ | ⟨u, v, arg, hp, hk⟩
  · cases h with
    | known h1 h2 _ => exact hf.not_probe h1
    | unknown h1 h2 => exact hf.not_probe h1
    | refused h1 h2 => exact hf.not_attempt h1
  · cases h with
    | known h1 h2 h3 =>
      obtain ⟨rfl, rfl, rfl, rfl⟩ := hp.unique h1
      rw [h2] at hk
      rcases hk with ⟨_, hk⟩ | hk
      · exact hk h3
      · cases hk
    | unknown h1 h2 =>
      obtain ⟨rfl, rfl, rfl, rfl⟩ := hp.unique h1
      rw [h2] at hk
      rcases hk with ⟨hk, _⟩ | hk <;> cases hk
    | refused h1 h2 => exact h1.not_probe hp
  · cases h with
    | known h1 h2 h3 => exact hp.not_probe h1
    | unknown h1 h2 => exact hp.not_probe h1
    | refused h1 h2 =>
      obtain ⟨rfl, rfl, rfl⟩ := h1.unique hp
      rw [h2] at hk; cases hk

theorem Spec.Accepted.not_panic {u : Nat} (h : Spec.Accepted H sid l u (.received p :: t)) :
    ¬ Spec.Final H sid False False l R.panic (.received p :: t') := by
  intro h'
  cases h with
  | mk h1 h2 =>
    rcases h'.panic_cases with hf | ⟨u, v, a, k, hp, hk⟩ | ⟨u, v, arg, hp, hk⟩
    · exact hf.not_attempt h1
    · exact h1.not_probe hp
    · obtain ⟨rfl, rfl, rfl⟩ := h1.unique hp
      rw [h2] at hk; cases hk

end determined

/-! ### one iteration on a given packet -/

section step
variable {K : Crypto} {H : Handlers} {sid : Bytes} {st : AuthSt} {c' : ChaCha}
  {buf' p : Bytes} {s s1 : IoSt}

/-- the events of an iteration start with the packet received -/
theorem attempt_step (hsid : Spec.Fits sid) (hst : st.Ok)
    (h : In.recv K st.receive st.pktBuf s = (ok (p, c', buf'), s1)) (hw : s.wcap = none)
    (hroom : Room st s) :
    (∃ st' s' t, Server.attempt K H sid st s = (ok (.inl st'), s') ∧
      s'.log = s.log ++ .received p :: t ∧ Spec.Round H sid s.log (.received p :: t) ∧ st'.Ok ∧
      s'.wcap = none ∧ Room st' s' ∧ s'.inp = s1.inp ∧ st'.receive = c' ∧
      Spec.keysOf st'.send = Spec.keysOf st.send ∧
      st'.send.counter.toNat = st.send.counter.toNat + 1) ∨
    (∃ a s' t, Server.attempt K H sid st s = (ok (.inr a), s') ∧
      s'.log = s.log ++ .received p :: t ∧ Spec.Accepted H sid s.log a.user (.received p :: t) ∧
      s'.wcap = none ∧ s'.inp = s1.inp ∧ a.receive = c' ∧
      Spec.keysOf a.send = Spec.keysOf st.send ∧
      a.send.counter.toNat = st.send.counter.toNat + 1) ∨
    (∃ s', Server.attempt K H sid st s = (err (), s') ∧
      s'.log = s.log ++ [.received p] ∧ Spec.Malformed p) ∨
    (∃ s' t, Server.attempt K H sid st s = (R.panic, s') ∧
      s'.log = s.log ++ .received p :: t ∧
      Spec.Final H sid False False s.log R.panic (.received p :: t)) := by
  have ha := attempt_ok K H hsid hst s
  obtain ⟨t, ht⟩ := attempt_starts (H := H) (sid := sid) hst h
  revert ha ht
  rcases Server.attempt K H sid st s with ⟨r, s'⟩
  intro ha ht
  simp only at ht
  cases r with
  | ok x =>
    cases x with
    | inl st' =>
      obtain ⟨t', h1, h2, h3, ⟨_, h4, h5⟩, q, b, s2, h6, h7, h8, h9⟩ := ha
      rw [ht] at h1
      rw [← List.append_cancel_left h1] at h2
      rw [h] at h6
      cases h6
      exact .inl ⟨st', s', t, rfl, ht, h2, h3, h4 hw, h5 hroom, h7, rfl, h8, h9⟩
    | inr a =>
      obtain ⟨⟨q, b, s2, h6, h7, h8, h9⟩, hw', t', h1, h2⟩ := ha
      rw [ht] at h1
      rw [← List.append_cancel_left h1] at h2
      rw [h] at h6
      cases h6
      cases h2 with
      | accepted h2 => exact .inr (.inl ⟨a, s', t, rfl, ht, h2, hw' hw, h7, rfl, h8, h9⟩)
  | err e =>
    obtain ⟨t', h1, h2⟩ := ha
    rw [ht] at h1
    rw [← List.append_cancel_left h1] at h2
    cases h2 with
    | malformed h2 => exact .inr (.inr (.inl ⟨s', rfl, ht, h2⟩))
  | panic =>
    obtain ⟨t', h1, h2⟩ := ha
    rw [ht] at h1
    rw [← List.append_cancel_left h1] at h2
    exact .inr (.inr (.inr ⟨s', t, rfl, ht, h2.mono (fun h => h hw) (fun h => h hroom)⟩))

theorem attempt_round (hsid : Spec.Fits sid) (hst : st.Ok) {t : List Event}
    (h : In.recv K st.receive st.pktBuf s = (ok (p, c', buf'), s1)) (hw : s.wcap = none)
    (hroom : Room st s) (hr : Spec.Round H sid s.log (.received p :: t)) :
    ∃ st' s', Server.attempt K H sid st s = (ok (.inl st'), s') ∧
      s'.log = s.log ++ .received p :: t ∧ st'.Ok ∧
      s'.wcap = none ∧ Room st' s' ∧ s'.inp = s1.inp ∧ st'.receive = c' ∧
      Spec.keysOf st'.send = Spec.keysOf st.send ∧
      st'.send.counter.toNat = st.send.counter.toNat + 1 := by
  rcases attempt_step (H := H) hsid hst h hw hroom with ⟨st', s', t', h1, h2, h3, h4⟩ |
    ⟨a, s', t', h1, h2, h3, _⟩ | ⟨s', h1, h2, h3⟩ | ⟨s', t', h1, h2, h3⟩
  · rw [h3.unique hr] at h2
    exact ⟨st', s', h1, h2, h4⟩
  · exact absurd h3 hr.not_accepted
  · exact absurd h3 hr.not_malformed
  · exact absurd h3 hr.not_panic

theorem attempt_accepted (hsid : Spec.Fits sid) (hst : st.Ok) {t : List Event} {u : Nat}
    (h : In.recv K st.receive st.pktBuf s = (ok (p, c', buf'), s1)) (hw : s.wcap = none)
    (hroom : Room st s) (hr : Spec.Accepted H sid s.log u (.received p :: t)) :
    ∃ a s', Server.attempt K H sid st s = (ok (.inr a), s') ∧
      s'.log = s.log ++ .received p :: t ∧ a.user = u ∧
      s'.wcap = none ∧ s'.inp = s1.inp ∧ a.receive = c' ∧
      Spec.keysOf a.send = Spec.keysOf st.send ∧
      a.send.counter.toNat = st.send.counter.toNat + 1 := by
  rcases attempt_step (H := H) hsid hst h hw hroom with ⟨st', s', t', h1, h2, h3, h4⟩ |
    ⟨a, s', t', h1, h2, h3, h4⟩ | ⟨s', h1, h2, h3⟩ | ⟨s', t', h1, h2, h3⟩
  · exact absurd hr h3.not_accepted
  · obtain ⟨rfl, e⟩ := h3.unique hr
    exact ⟨a, s', h1, h2, e, h4⟩
  · exact absurd h3 hr.not_malformed
  · exact absurd h3 hr.not_panic

theorem attempt_panic (hsid : Spec.Fits sid) (hst : st.Ok) {t : List Event}
    (h : In.recv K st.receive st.pktBuf s = (ok (p, c', buf'), s1)) (hw : s.wcap = none)
    (hroom : Room st s)
    (hr : Spec.Final H sid False False s.log R.panic (.received p :: t)) :
    (Server.attempt K H sid st s).1 = R.panic := by
  rcases attempt_step (H := H) hsid hst h hw hroom with ⟨st', s', t', h1, h2, h3, h4⟩ |
    ⟨a, s', t', h1, h2, h3, _⟩ | ⟨s', h1, h2, h3⟩ | ⟨s', t', h1, h2, h3⟩
  · exact absurd hr h3.not_panic
  · exact absurd hr h3.not_panic
  · rcases hr.panic_cases with hf | ⟨u, v, a, k, hp, _⟩ | ⟨u, v, arg, hp, _⟩
    · exact absurd h3 hf.not_malformed
    · exact absurd hp h3.not_probe
    · exact absurd hp h3.not_attempt
  · rw [h1]

end step

/-! ### streams of packets -/

theorem Spec.Stream.arrive {K : Crypto} {k : Spec.Keys} {ps : List Bytes} :
    ∀ {n : Nat} {w rest : Bytes}, Spec.Stream K k n ps w rest → Spec.Arrive K k n ps w rest := by
  induction ps with
  | nil => exact fun h => h
  | cons p ps ih =>
    rintro n w rest ⟨padding, raw, w', h1, h2, h3, h4⟩
    exact ⟨raw, w', packetOf_framed h1, h2, h3, ih h4⟩

theorem Spec.Arrive.append {K : Crypto} {k : Spec.Keys} {a b : List Bytes} :
    ∀ {n : Nat} {w rest : Bytes}, Spec.Arrive K k n (a ++ b) w rest →
      ∃ m, Spec.Arrive K k n a w m ∧ Spec.Arrive K k (n + a.length) b m rest := by
  induction a with
  | nil => exact fun h => ⟨_, rfl, h⟩
  | cons p a ih =>
    rintro n w rest ⟨raw, w', h1, h2, h3, h4⟩
    obtain ⟨m, h5, h6⟩ := ih h4
    refine ⟨m, ⟨raw, w', h1, h2, h3, h5⟩, ?_⟩
    rw [List.length_cons, show n + (a.length + 1) = n + 1 + a.length by omega]
    exact h6

theorem Spec.Arrive.recv {K : Crypto} {c : ChaCha} {buf p rest : Bytes} {s : IoSt} {ps : List Bytes}
    (h : Spec.Arrive K (Spec.keysOf c) c.counter.toNat (p :: ps) s.inp rest)
    (hb : buf.length = 35000) (hc : c.counter.toNat + 1 < 2 ^ 64) :
    ∃ c' buf' s1, In.recv K c buf s = (ok (p, c', buf'), s1) ∧
      Spec.keysOf c' = Spec.keysOf c ∧ c'.counter.toNat = c.counter.toNat + 1 ∧
      Spec.Arrive K (Spec.keysOf c') c'.counter.toNat ps s1.inp rest := by
  obtain ⟨raw, w', h1, h2, h3, h4⟩ := h
  obtain ⟨c', buf', e1, e2, _, e3⟩ := C22_recv_framed K c buf p raw w' s h1 (by omega) hc h3
  exact ⟨c', buf', _, e3, e1, e2, by rw [e1, e2]; exact h4⟩

/-- a packet is received exactly if the stream starts with one -/
theorem arrive_iff {K : Crypto} {c : ChaCha} {buf p rest : Bytes} {s : IoSt} (hb : buf.length = 35000)
    (hc : c.counter.toNat + 1 < 2 ^ 64) :
    (∃ c' buf' s', In.recv K c buf s = (ok (p, c', buf'), s') ∧ s'.inp = rest) ↔
    Spec.Arrive K (Spec.keysOf c) c.counter.toNat [p] s.inp rest := by
  constructor
  · rintro ⟨c', buf', s', h, rfl⟩
    obtain ⟨raw, h1, h2, h3⟩ := In.recv_sealed (by omega) h
    exact ⟨raw, _, h1, by omega, h3, rfl⟩
  · intro h
    obtain ⟨c', buf', s1, h1, _, _, h2⟩ := h.recv hb hc
    exact ⟨c', buf', s1, h1, h2⟩

/-- nothing is received from a stream that does not start with a packet -/
theorem recv_nothing {K : Crypto} {c : ChaCha} {buf : Bytes} {s : IoSt} (hb : buf.length = 35000)
    (hc : c.counter.toNat + 1 < 2 ^ 64)
    (h : ∀ p rest, ¬ Spec.Arrive K (Spec.keysOf c) c.counter.toNat [p] s.inp rest) :
    ∃ e i, In.recv K c buf s = (err e, { s with inp := i }) := by
  rcases In.recv_outcome K c buf s (by omega) with h' | ⟨h', _⟩ | ⟨_, p, c', buf', i, h', _⟩
  · exact h'
  · exact absurd hc h'
  · exact absurd (arrive_iff hb hc |>.mp ⟨c', buf', _, h', rfl⟩) (h _ _)

theorem Spec.Arrive.concat {K : Crypto} {k : Spec.Keys} {a b : List Bytes} :
    ∀ {n : Nat} {w m rest : Bytes}, Spec.Arrive K k n a w m → Spec.Arrive K k (n + a.length) b m rest →
      Spec.Arrive K k n (a ++ b) w rest := by
  induction a with
  | nil => rintro n w m rest rfl h; exact h
  | cons p a ih =>
    rintro n w m rest ⟨raw, w', h1, h2, h3, h4⟩ h
    refine ⟨raw, w', h1, h2, h3, ih h4 ?_⟩
    rw [List.length_cons, show n + (a.length + 1) = n + 1 + a.length by omega] at h
    exact h

/-- every stream is a sequence of packets and something that does not start with a packet -/
theorem Spec.Arrive.all (K : Crypto) (k : Spec.Keys) : ∀ (N n : Nat) (w : Bytes), w.length ≤ N →
    ∃ ps rest, Spec.Arrive K k n ps w rest ∧
      ∀ p r, ¬ Spec.Arrive K k (n + ps.length) [p] rest r := by
  intro N
  induction N with
  | zero =>
    intro n w hw
    refine ⟨[], w, rfl, ?_⟩
    rintro p r ⟨raw, w', h1, h2, h3, h4⟩
    have := congrArg List.length h3
    simp [Spec.sealed] at this
    omega
  | succ N ih =>
    intro n w hw
    by_cases h : ∃ p r, Spec.Arrive K k n [p] w r
    · obtain ⟨p, r, raw, w', h1, h2, h3, rfl⟩ := h
      have := congrArg List.length h3
      simp [Spec.sealed] at this
      obtain ⟨ps, rest, h4, h5⟩ := ih (n + 1) w' (by omega)
      refine ⟨p :: ps, rest, ⟨raw, w', h1, h2, h3, h4⟩, ?_⟩
      rw [List.length_cons, show n + (ps.length + 1) = n + 1 + ps.length by omega]
      exact h5
    · exact ⟨[], w, rfl, fun p r hp => h ⟨p, r, hp⟩⟩

theorem Spec.Round.start {H : Handlers} {sid : Bytes} {l t : List Event} (h : Spec.Round H sid l t) :
    ∃ p t', t = .received p :: t' ∧ Spec.payloads t = [p] ∧ t.length = 3 := by
  cases h <;> exact ⟨_, _, rfl, rfl, rfl⟩

theorem Spec.Accepted.start {H : Handlers} {sid : Bytes} {l t : List Event} {u : Nat}
    (h : Spec.Accepted H sid l u t) :
    ∃ p t', t = .received p :: t' ∧ Spec.payloads t = [p] ∧ t.length = 3 := by
  cases h; exact ⟨_, _, rfl, rfl, rfl⟩

theorem payloads_append (a b : List Event) :
    Spec.payloads (a ++ b) = Spec.payloads a ++ Spec.payloads b := List.filterMap_append

/-- requests that are answered, one after the other -/
theorem loop_rounds {K : Crypto} {H : Handlers} {sid : Bytes} (hsid : Spec.Fits sid)
    {l t : List Event} (hr : Spec.Rounds H sid l t) :
    ∀ {st : AuthSt} {s : IoSt} {rest : Bytes}, l = s.log → st.Ok → s.wcap = none → Room st s →
      Spec.Arrive K (Spec.keysOf st.receive) st.receive.counter.toNat (Spec.payloads t) s.inp rest →
      ∃ st' s', Server.loop K H sid st s = Server.loop K H sid st' s' ∧ s'.log = s.log ++ t ∧
        st'.Ok ∧ s'.wcap = none ∧ Room st' s' ∧ s'.inp = rest ∧
        Spec.keysOf st'.receive = Spec.keysOf st.receive ∧
        st'.receive.counter.toNat = st.receive.counter.toNat + (Spec.payloads t).length ∧
        Spec.keysOf st'.send = Spec.keysOf st.send ∧
        st'.send.counter.toNat = st.send.counter.toNat + (Spec.payloads t).length := by
  induction hr with
  | nil =>
    intro st s rest _ hst hw hroom hi
    exact ⟨st, s, rfl, by simp, hst, hw, hroom, hi, rfl, rfl, rfl, rfl⟩
  | @cons l r t h1 _ ih =>
    rintro st s rest rfl hst hw hroom hi
    obtain ⟨p, t', e1, e2, _⟩ := h1.start
    rw [payloads_append, e2] at hi
    obtain ⟨c', buf', s1, g1, g2, g3, g4⟩ := hi.recv hst.pkt (by have := hroom.2; omega)
    rw [e1] at h1
    obtain ⟨st', s', k1, k2, k3, k4, k5, k6, k7, k8, k9⟩ := attempt_round hsid hst g1 hw hroom h1
    rw [← k6, ← k7] at g4
    obtain ⟨st2, s2, m1, m2, m3, m4, m5, m6, m7, m8, m9, m10⟩ := ih (by rw [k2, e1]) k3 k4 k5 g4
    refine ⟨st2, s2, ?_, ?_, m3, m4, m5, m6, ?_, ?_, ?_, ?_⟩
    · rw [Server.loop_eq K H hsid hst, M.bind_ok k1]
      exact m1
    · rw [m2, k2, e1]; simp
    · rw [m7, k7, g2]
    · rw [m8, k7, g3, payloads_append, e2]; simp; omega
    · rw [m9, k8]
    · rw [m10, k9, payloads_append, e2]; simp; omega

theorem service_run {K : Crypto} {st : AuthSt} {s s1 : IoSt} {p buf' : Bytes} {c' : ChaCha}
    (hst : st.Ok) (hw : s.wcap = none) (hroom : Room st s)
    (h : In.recv K st.receive st.pktBuf s = (ok (p, c', buf'), s1)) (hp : Spec.ServiceRequested p) :
    ∃ st' s', Server.service K st s = (ok st', s') ∧
      s'.log = s.log ++ [.received p, .sent Spec.acceptReply] ∧ st'.Ok ∧ s'.wcap = none ∧
      Room st' s' ∧ s'.inp = s1.inp ∧ st'.receive = c' ∧
      Spec.keysOf st'.send = Spec.keysOf st.send ∧
      st'.send.counter.toNat = st.send.counter.toNat + 1 := by
  have ha := service_ok K hst s
  obtain ⟨t, ht⟩ := service_starts hst h
  revert ha ht
  rcases Server.service K st s with ⟨r, s'⟩
  intro ha ht
  simp only at ht
  cases r with
  | err e => exact absurd ha id
  | ok st' =>
    obtain ⟨q, h1, _, h2, ⟨_, h3, h4⟩, q', b, s2, h5, h6, h7, h8⟩ := ha
    rw [h] at h5
    cases h5
    rw [h1] at ht
    have := List.append_cancel_left ht
    simp only [List.cons.injEq, Event.received.injEq] at this
    rw [this.1] at h1
    exact ⟨st', s', rfl, h1, h2, h3 hw, h4 hroom, h6, rfl, h7, h8⟩
  | panic =>
    obtain ⟨t', h1, h2⟩ := ha
    rw [ht] at h1
    have h1 := List.append_cancel_left h1
    cases h2 with
    | noService => cases h1
    | otherMessage h => cases h1; exact absurd hp h
    | serviceWrite w => exact absurd hw w
    | serviceOverflow o => exact absurd hroom o

/-- a client that follows the protocol, up to some point -/
theorem session_run {K : Crypto} {H : Handlers} {ident : Bytes} {s s1 : IoSt} {c : HostClient}
    {p0 rest : Bytes} {t : List Event} (hid : Spec.Fits ident)
    (h : Host.handleNewClient K ident s = (ok c, s1)) (hw : s.wcap = none)
    (hlen : s.inp.length + 4 < 2 ^ 64) (hp0 : Spec.ServiceRequested p0)
    (hr : Spec.Rounds H c.sessionIdentifier (s.log ++ [.received p0, .sent Spec.acceptReply]) t)
    (hi : Spec.Arrive K (Spec.keysOf c.receiveCipher) 3 (p0 :: Spec.payloads t) s1.inp rest) :
    ∃ st' s', Server.authenticateNewClient K H ident s =
        Server.loop K H c.sessionIdentifier st' s' ∧
      s'.log = s.log ++ [.received p0, .sent Spec.acceptReply] ++ t ∧ st'.Ok ∧ s'.wcap = none ∧
      Room st' s' ∧ s'.inp = rest ∧ Spec.keysOf st'.receive = Spec.keysOf c.receiveCipher ∧
      st'.receive.counter.toNat = 4 + (Spec.payloads t).length ∧
      Spec.keysOf st'.send = Spec.keysOf c.sendCipher ∧
      st'.send.counter.toNat = 4 + (Spec.payloads t).length ∧
      Spec.Fits c.sessionIdentifier := by
  obtain ⟨hc1, hc2, hsl, hin, hlog, hw1⟩ := handshake_session hid h
  have hsid : Spec.Fits c.sessionIdentifier := by rw [Spec.Fits, hsl]; omega
  have e1 : (startSt c).send.counter.toNat = 3 := by
    show c.sendCipher.counter.toNat = 3
    rw [hc2]; rfl
  have e2 : (startSt c).receive.counter.toNat = 3 := by
    show c.receiveCipher.counter.toNat = 3
    rw [hc1]; rfl
  have hroom : Room (startSt c) s1 := by
    rw [Room, e1, e2]
    omega
  have hrun : Server.authenticateNewClient K H ident s = (do
      let st ← Server.service K (startSt c)
      Server.loop K H c.sessionIdentifier st : M Unit Authenticated) s1 := by
    rw [Server.authenticateNewClient, M.bind_ok (a := c) (s' := s1) (by rw [M.mapErr_run, h]; rfl)]
    rfl
  rw [show c.receiveCipher = (startSt c).receive from rfl] at hi ⊢
  rw [show c.sendCipher = (startSt c).send from rfl]
  have hstart := startSt_ok c
  rw [hrun]
  generalize startSt c = st0 at *
  obtain ⟨c', buf', s2, g1, g2, g3, g4⟩ := Spec.Arrive.recv (c := st0.receive) (by rw [e2]; exact hi)
    hstart.pkt (by rw [e2]; omega)
  obtain ⟨st1, s3, k1, k2, k3, k4, k5, k6, k7, k8, k9⟩ := service_run hstart (hw1 hw) hroom g1 hp0
  rw [hlog] at k2
  rw [← k6, ← k7] at g4
  obtain ⟨st2, s4, m1, m2, m3, m4, m5, m6, m7, m8, m9, m10⟩ := loop_rounds hsid hr k2.symm k3 k4 k5 g4
  refine ⟨st2, s4, ?_, by rw [m2, k2], m3, m4, m5, m6, by rw [m7, k7, g2], by rw [m8, k7, g3, e2],
    by rw [m9, k8], by rw [m10, k9, e1], hsid⟩
  rw [M.bind_ok k1]
  exact m1

end Nora
