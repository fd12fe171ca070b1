import Verif.Props.IntegrityWitness
/-
C115: a client of whose packets a part was read and lost, because the read was interrupted, is never heard again.
-/
namespace Nora
open R Server

variable {cfg : Config}

/-- the packets `raws` as they are sent, sealed with consecutive numbers -/
def Spec.packets (K : Crypto) (k : Spec.Keys) : Nat → List Bytes → Bytes
  | _, [] => []
  | n, raw :: raws => Spec.sealed K k n raw ++ Spec.packets K k (n + 1) raws

/-- Nothing is forged in the stream `inp`, and it has each packet once: wherever bytes followed by their MAC under
packet number `start + i` occur in it, they are the `i`-th packet that was sent, and before them are the packets that
were sent before it and nothing else. -/
def Spec.InPlace (K : Crypto) (k : Spec.Keys) (start : Nat) (raws : List Bytes) (inp : Bytes) : Prop :=
  ∀ pre cov post i, i ≤ raws.length → inp = pre ++ cov ++ Spec.mac K k (start + i) cov ++ post →
    ∃ raw, raws[i]? = some raw ∧ pre = Spec.packets K k start (raws.take i) ∧
      cov = Spec.sealLength K k (start + i) (raw.take 4) ++ Spec.sealBody K k (start + i) (raw.drop 4)

theorem Spec.InPlace.noForgery {K : Crypto} {k : Spec.Keys} {start : Nat} {raws : List Bytes} {inp : Bytes}
    (h : Spec.InPlace K k start raws inp) : NoForgery K k start raws inp := by
  intro pre cov post i hi hinp
  obtain ⟨raw, h1, -, h2⟩ := h pre cov post i hi hinp
  exact ⟨raw, h1, h2⟩

/-- the ciphers of a client after the handshake -/
def endsOf : Phase → Option Ends
  | .auth _ st => some st.ends
  | .session _ st => some st.ends
  | _ => none

/-- what goes over a connection from some moment after the handshake on -/
theorem carries_more (hid : Spec.Fits cfg.ident) (s : IoSt) (as more : List Client.Step) {e : Ends}
    (he : endsOf (Spec.alone cfg s as).phase = some e) (hf : e.fine) :
    Carries cfg.K True True e (Spec.alone cfg s as).io (Spec.alone cfg s (as ++ more)).io
      (endsOf (Spec.alone cfg s (as ++ more)).phase) ∧
    (endsOf (Spec.alone cfg s (as ++ more)).phase = none → (Spec.alone cfg s (as ++ more)).phase = .ended) := by
  induction more using list_snoc_induction with
  | nil =>
    rw [List.append_nil, he]
    exact ⟨.refl hf, by simp⟩
  | snoc more a ih =>
    have hinv := (alone_inv hid s (as ++ more)).2
    rw [← List.append_assoc, alone_snoc]
    generalize (Spec.alone cfg s as).io = io0 at ih ⊢
    generalize Spec.alone cfg s (as ++ more) = c at ih hinv
    obtain ⟨phase, io⟩ := c
    obtain ⟨ih, ih2⟩ := ih
    cases phase with
    | new => cases ih2 rfl
    | service cl => cases ih2 rfl
    | auth sid st =>
      replace ih : Carries cfg.K True True e io0 io (some st.ends) := ih
      obtain ⟨g1, g2, _⟩ := hinv
      have hf := Flow.attempt (K := cfg.K) (D := True) (G := True) cfg.H sid st g2 io
      unfold Conn.poll
      simp only [Phase.step, M.bind_run]
      rcases hx : attempt cfg.K cfg.H sid st io with ⟨r, io1⟩
      rw [hx] at hf
      replace hf := ih.trans hf
      cases r with
      | ok x =>
        cases x with
        | inl st' => exact ⟨hf, nofun⟩
        | inr c => exact ⟨hf.fine (fun _ => List.length_replicate ..), nofun⟩
      | err e => exact ⟨hf, fun _ => rfl⟩
      | panic => exact ⟨hf, fun _ => rfl⟩
    | session user st =>
      replace ih : Carries cfg.K True True e io0 io (some st.ends) := ih
      have hf := Flow.step (K := cfg.K) (D := True) (G := True) cfg.C user st (a := a)
        (fun _ _ _ => trivial) (fun _ _ _ => trivial) ih.isFine io
      unfold Conn.poll
      simp only [Phase.step, M.bind_run, M.mapErr_run]
      rcases hx : Client.step cfg.K cfg.C user st a io with ⟨r, io1⟩
      rw [hx] at hf
      replace hf := ih.trans hf
      cases r with
      | ok x =>
        cases x with
        | inl st' => exact ⟨hf, nofun⟩
        | inr u => exact ⟨hf, fun _ => rfl⟩
      | err e => exact ⟨hf.stop, fun _ => rfl⟩
      | panic => exact ⟨hf, fun _ => rfl⟩
    | ended => exact ⟨ih, ih2⟩

/-- a connection goes on from where it is -/
theorem run_more {ops : List Op} {i : Nat} {s : IoSt} {as : List Client.Step}
    (hc : (run cfg ops).conns[i]? = some (Spec.alone cfg s as)) (post : List Op) :
    ∃ more, (run cfg (ops ++ post)).conns[i]? = some (Spec.alone cfg s (as ++ more)) := by
  induction post using list_snoc_induction with
  | nil => exact ⟨[], by rw [List.append_nil, List.append_nil]; exact hc⟩
  | snoc post op ih =>
    obtain ⟨more, ih⟩ := ih
    rw [← List.append_assoc, run_snoc]
    generalize run cfg (ops ++ post) = x at ih
    unfold State.step
    split
    · cases op with
      | acceptPanics => exact ⟨more, ih⟩
      | accept io =>
        refine ⟨more, ?_⟩
        rw [← ih]
        exact List.getElem?_append_left (List.getElem?_eq_some_iff.mp ih).1
      | poll j a =>
        by_cases hj : j = i
        · subst hj
          refine ⟨more ++ [a], ?_⟩
          rw [← List.append_assoc, alone_snoc]
          simp only [ih]
          rw [List.getElem?_set_self (List.getElem?_eq_some_iff.mp ih).1]
        · refine ⟨more, ?_⟩
          simp only
          cases x.conns[j]? with
          | none => exact ih
          | some c => simp only; rw [List.getElem?_set_ne hj]; exact ih
    · exact ⟨more, ih⟩

/-- a connection that has ended stays as it is -/
theorem alone_after (s : IoSt) (as more : List Client.Step) (h : (Spec.alone cfg s as).phase = .ended) :
    Spec.alone cfg s (as ++ more) = Spec.alone cfg s as := by
  induction more using list_snoc_induction with
  | nil => rw [List.append_nil]
  | snoc more a ih =>
    rw [← List.append_assoc, alone_snoc, ih]
    generalize Spec.alone cfg s as = c at h
    obtain ⟨phase, io⟩ := c
    change phase = .ended at h
    subst h
    rfl

/-- the number of packets that were taken is at most that of those that were sent -/
theorem taken_le {K : Crypto} {k : Spec.Keys} {D : Prop} {n : Nat} {ps : List Bytes} {u v : Bytes}
    {qs : List (Bytes × Bytes × Bytes)} (h : Spec.Taken K k D n ps u)
    (hqs : ∀ x ∈ qs, Spec.PacketOf .b8 false x.1 x.2.1 x.2.2)
    (hin : Spec.InPlace K k n (qs.map (·.2.2)) (u ++ v)) : ps.length ≤ (qs.map (·.2.2)).length := by
  have := (taken_sent h v qs hqs hin.noForgery).length_le
  simpa using this

/-- C115: if more was read from a client than the packets it sent of which the server has received the payloads (as
when a read was interrupted in the middle of a packet: what it has read is lost), then the server receives nothing
more from this client, whatever all the clients do from then on. -/
theorem C115_deaf (cfg : Config) (hid : Spec.Fits cfg.ident) (ops post : List Op) {i : Nat} {c : Conn}
    {s s1 : IoSt} {as : List Client.Step} {cl : HostClient} {t : List Event} (qs : List (Bytes × Bytes × Bytes))
    (hc : (run cfg ops).conns[i]? = some c) (ho : Spec.own i ops = some (s, as))
    (hh : Host.handleNewClient cfg.K cfg.ident s = (ok cl, s1))
    (hqs : ∀ x ∈ qs, Spec.PacketOf .b8 false x.1 x.2.1 x.2.2)
    (hin : Spec.InPlace cfg.K (Spec.keysOf cl.receiveCipher) 3 (qs.map (·.2.2)) s1.inp)
    (ht : c.io.log = s.log ++ t) (hne : t ≠ [])
    (hlost : (Spec.packets cfg.K (Spec.keysOf cl.receiveCipher) 3
      ((qs.map (·.2.2)).take (Spec.payloads t).length)).length + c.io.inp.length < s1.inp.length) :
    ∃ c' t', (run cfg (ops ++ post)).conns[i]? = some c' ∧ c'.io.log = c.io.log ++ t' ∧
      Spec.payloads t' = [] := by
  obtain ⟨s', as0, more0, h1, h2, -⟩ := conn_of_run hc
  rw [ho] at h1
  cases h1
  subst h2
  obtain ⟨more, hrun⟩ := run_more hc post
  have hf := flow_inv hid s as0
  have hmore := fun e => carries_more hid s as0 more (e := e)
  have hend := alone_after (cfg := cfg) s as0 more
  generalize Spec.alone cfg s (as0 ++ more) = c' at hrun hmore hend
  generalize Spec.alone cfg s as0 = c at hf hmore hend ht hlost
  refine ⟨c', ?_⟩
  have hstill : c.phase = .ended → ∃ t', (run cfg (ops ++ post)).conns[i]? = some c' ∧
      c'.io.log = c.io.log ++ t' ∧ Spec.payloads t' = [] := fun h =>
    ⟨[], hrun, by rw [hend h]; simp, rfl⟩
  have main : ∀ e, endsOf c.phase = some e → Since cfg s as0 c.io (some e) →
      ∃ t', (run cfg (ops ++ post)).conns[i]? = some c' ∧ c'.io.log = c.io.log ++ t' ∧
        Spec.payloads t' = [] := by
    rintro e he ⟨cl', s1', g1, t0, w, u, v, r', g2, g3, g4, g5, g6, g7⟩
    rw [hh] at g1
    cases g1
    obtain ⟨k1, k2, -, -, k3, -⟩ := handshake_session hid hh
    obtain ⟨-, -, m1, -, -, m2, m3⟩ := g7 e rfl
    rw [k3, ht] at g2
    cases List.append_cancel_left g2
    rw [show (firstEnds cl).recv.counter.toNat = 3 by simp only [firstEnds, k1]; rfl] at g6 m3
    have hle := taken_le (v := v ++ c.io.inp) g6 hqs (by rw [← List.append_assoc, ← g4]; exact hin)
    obtain ⟨⟨t', w', u', v', r'', n1, -, n3, -, n4, -⟩, -⟩ := hmore e he m1
    refine ⟨t', hrun, n1, ?_⟩
    rw [m2, m3] at n4
    generalize Spec.payloads t' = ps at n4
    cases n4 with
    | nil => rfl
    | @cons _ p gap raw ps u2 q1 q2 q3 q4 q5 =>
      exfalso
      obtain ⟨raw', -, e1, -⟩ := hin (u ++ v ++ gap) (Spec.sealLength cfg.K (Spec.keysOf cl.receiveCipher)
          (3 + (Spec.payloads t).length) (raw.take 4) ++ Spec.sealBody cfg.K (Spec.keysOf cl.receiveCipher)
          (3 + (Spec.payloads t).length) (raw.drop 4)) (u2 ++ v' ++ c'.io.inp) (Spec.payloads t).length hle
        (by rw [g4, n3]; simp [Spec.sealed, firstEnds])
      have e2 := congrArg List.length g4
      rw [← e1] at hlost
      simp only [List.length_append] at hlost e2
      omega
  have hlog : c.io.log = s.log → False := fun h => hne (by simpa [h] using ht)
  have hs1 : s1.log = s.log := (handshake_session hid hh).2.2.2.2.1
  cases hp : c.phase with
  | new =>
    rw [FlowInv, hp] at hf
    exact absurd (by rw [hf]) hlog
  | service cl' =>
    rw [FlowInv, hp] at hf
    exact absurd ((handshake_session hid hf).2.2.2.2.1) hlog
  | auth sid st =>
    rw [FlowInv, hp] at hf
    exact main _ (by rw [hp]; rfl) hf
  | session user st =>
    rw [FlowInv, hp] at hf
    exact main _ (by rw [hp]; rfl) hf
  | ended => exact hstill hp

/-- without other bytes between them, the packets that were taken are the first ones that were sent -/
theorem taken_packets {K : Crypto} {k : Spec.Keys} {n : Nat} {ps : List Bytes} {u : Bytes}
    (h : Spec.Taken K k False n ps u) : ∀ (v : Bytes) (raws : List Bytes), Spec.InPlace K k n raws (u ++ v) →
    u = Spec.packets K k n (raws.take ps.length) := by
  induction h with
  | nil => exact fun _ _ _ => by simp [Spec.packets]
  | @cons n p gap raw ps u h1 h2 h3 h4 _ ih =>
    intro v raws hin
    have hgap : gap = [] := Classical.not_not.mp fun h => h1 h
    subst hgap
    obtain ⟨raw', hraw, -, hcov⟩ := hin []
      (Spec.sealLength K k n (raw.take 4) ++ Spec.sealBody K k n (raw.drop 4)) (u ++ v) 0
      (Nat.zero_le _) (by simp [Spec.sealed])
    have hs : Spec.sealed K k n raw = Spec.sealed K k n raw' := by
      unfold Spec.sealed
      rw [hcov]
      rfl
    cases raws with
    | nil => cases hraw
    | cons r raws =>
      cases hraw
      rw [List.nil_append, hs, List.length_cons, List.take_succ_cons, Spec.packets]
      congr 1
      refine ih v raws fun pre cov post i hi hinp => ?_
      rw [show n + 1 + i = n + (i + 1) by omega] at hinp ⊢
      obtain ⟨raw2, r1, r2, r3⟩ := hin (Spec.sealed K k n raw' ++ pre) cov post (i + 1)
        (by simp at hi ⊢; omega) (by rw [List.nil_append, hs, List.append_assoc, hinp]; simp)
      rw [List.take_succ_cons, Spec.packets] at r2
      exact ⟨raw2, by simpa using r1, List.append_cancel_left r2, r3⟩

/-- C115 for the first read that is interrupted: if a step for a client reads some of its input and no packet is
received in it, then the server receives nothing more from this client. -/
theorem C115_interrupted (cfg : Config) (hid : Spec.Fits cfg.ident) (ops post : List Op) (b : Client.Step) {i : Nat}
    {c c1 : Conn} {s s1 : IoSt} {as : List Client.Step} {cl : HostClient} {t t1 : List Event}
    (qs : List (Bytes × Bytes × Bytes)) (hr : (run cfg ops).running = true)
    (hc : (run cfg ops).conns[i]? = some c) (ho : Spec.own i ops = some (s, as))
    (hcut : ¬ Spec.ReadCut as) (hp : c.phase ≠ .ended)
    (hh : Host.handleNewClient cfg.K cfg.ident s = (ok cl, s1))
    (hqs : ∀ x ∈ qs, Spec.PacketOf .b8 false x.1 x.2.1 x.2.2)
    (hin : Spec.InPlace cfg.K (Spec.keysOf cl.receiveCipher) 3 (qs.map (·.2.2)) s1.inp)
    (ht : c.io.log = s.log ++ t) (hne : t ≠ [])
    (hc1 : (run cfg (ops ++ [.poll i b])).conns[i]? = some c1) (ht1 : c1.io.log = s.log ++ t1)
    (hsame : Spec.payloads t1 = Spec.payloads t) (hread : c1.io.inp ≠ c.io.inp) :
    ∃ c' t', (run cfg (ops ++ .poll i b :: post)).conns[i]? = some c' ∧ c'.io.log = c1.io.log ++ t' ∧
      Spec.payloads t' = [] := by
  obtain ⟨u, hu, htk⟩ := C67_packets cfg hid ops hc ho hcut hp hh ht hne
  have hpk := taken_packets htk c.io.inp _ (hu ▸ hin)
  obtain ⟨s', as0, more0, h1, h2, h3⟩ := conn_of_run hc
  rw [ho] at h1
  cases h1
  cases h3 hr
  have ho1 : Spec.own i (ops ++ [.poll i b]) = some (s, as0 ++ [b]) := by
    have ho' : (ops.foldl (Spec.ownStep i) (0, none)).2 = _ := ho
    rw [own_snoc]
    simp only [Spec.ownStep, if_true, ho', List.append_nil]
    rfl
  have e1 : c1 = Spec.alone cfg s (as0 ++ [b]) := by
    rw [run_snoc] at hc1
    unfold State.step at hc1
    rw [hr] at hc1
    simp only [hc, if_true] at hc1
    rw [List.getElem?_set_self (List.getElem?_eq_some_iff.mp hc).1, h2] at hc1
    rw [alone_snoc]
    exact (Option.some.inj hc1).symm
  have hf := flow_inv hid s as0
  have hmore := fun e => carries_more hid s as0 [b] (e := e)
  rw [← h2] at hf hmore
  rw [← e1] at hmore
  have hlog : c.io.log = s.log → False := fun h => hne (by simpa [h] using ht)
  have main : ∀ e, endsOf c.phase = some e → Since cfg s as0 c.io (some e) →
      t1 ≠ [] ∧ c1.io.inp.length < c.io.inp.length := by
    rintro e he ⟨cl', s1', g1, _, _, _, _, _, _, _, _, _, _, g7⟩
    obtain ⟨-, -, m1, -⟩ := g7 e rfl
    obtain ⟨⟨t', w', u', v', r'', n1, -, n3, -⟩, -⟩ := hmore e he m1
    constructor
    · rintro rfl
      rw [n1, ht] at ht1
      rw [List.append_assoc] at ht1
      exact hne (List.append_eq_nil_iff.mp (List.append_cancel_left ht1)).1
    · have e2 := congrArg List.length n3
      rcases Nat.eq_zero_or_pos (u' ++ v').length with h | h
      · rw [List.length_eq_zero_iff] at h
        rw [h] at n3
        exact absurd n3.symm hread
      · simp only [List.length_append] at e2 h
        omega
  have hlt : t1 ≠ [] ∧ c1.io.inp.length < c.io.inp.length := by
    cases hp' : c.phase with
    | new =>
      rw [FlowInv, hp'] at hf
      exact absurd (by rw [hf]) hlog
    | service cl' =>
      rw [FlowInv, hp'] at hf
      exact absurd ((handshake_session hid hf).2.2.2.2.1) hlog
    | auth sid st =>
      rw [FlowInv, hp'] at hf
      exact main _ (by rw [hp']; rfl) hf
    | session user st =>
      rw [FlowInv, hp'] at hf
      exact main _ (by rw [hp']; rfl) hf
    | ended => exact absurd hp' hp
  have := C115_deaf cfg hid (ops ++ [.poll i b]) post qs hc1 ho1 hh hqs hin ht1 hlt.1 (by
    rw [hsame, ← hpk, hu, List.length_append]
    omega)
  rw [List.append_assoc] at this
  exact this

/-! ### what such a session still does -/

/-- what happens because of a process and not of the client: its output is taken, or it has exited; and what is sent -/
def Spec.passing : Event → Bool
  | .sent _ => true
  | .proc (.stdout _ _) => true
  | .proc (.stderr _ _) => true
  | .proc (.exited _ _) => true
  | _ => false

/-- only such events come from the computation -/
def Passes {ε α : Type} (x : M ε α) : Prop :=
  ∀ s, ∃ u, (x s).2.log = s.log ++ u ∧ ∀ e ∈ u, Spec.passing e = true

section passes
variable {ε ε' α β : Type}

theorem Tame.passes {x : M ε α} (h : Tame x) : Passes x := fun s => ⟨[], by rw [(h s).1]; simp, by simp⟩

theorem Passes.bind {x : M ε α} {f : α → M ε β} (hx : Passes x) (hf : ∀ a, Passes (f a)) :
    Passes (x >>= f) := by
  intro s
  obtain ⟨t, ht, ht'⟩ := hx s
  rw [M.bind_run]
  revert ht
  rcases x s with ⟨r, s'⟩
  intro ht
  cases r with
  | ok a =>
    obtain ⟨u, hu, hu'⟩ := hf a s'
    refine ⟨t ++ u, by rw [← List.append_assoc, ← ht]; exact hu, fun e he => ?_⟩
    rcases List.mem_append.mp he with he | he
    · exact ht' e he
    · exact hu' e he
  | err e => exact ⟨t, ht, ht'⟩
  | panic => exact ⟨t, ht, ht'⟩

theorem Passes.mapErr {x : M ε α} (hx : Passes x) (f : ε → ε') : Passes (x.mapErr f) := hx
theorem Passes.lift (x : R ε α) : Passes (M.lift x) := (Tame.lift x).passes
theorem Passes.pure (x : α) : Passes (Pure.pure x : M ε α) := (Tame.pure x).passes
theorem Passes.fail (e : ε) : Passes (M.fail e : M ε α) := (Tame.fail e).passes
theorem Passes.panic : Passes (M.panic : M ε α) := fun _ => ⟨[], by simp [M.panic], by simp⟩
theorem Passes.event {e : Event} (h : Spec.passing e = true) : Passes (M.logEvent e : M ε Unit) :=
  fun s => ⟨[e], by rw [M.logEvent_run], by simpa using h⟩
theorem Passes.ite {c : Prop} {_ : Decidable c} {x y : M ε α} (hx : Passes x) (hy : Passes y) :
    Passes (if c then x else y) := by
  split_ifs <;> assumption

variable (K : Crypto) (cut : Client.Cut) (st : Client.St)

theorem Passes.out (c : ChaCha) (buf : Bytes)
    (f : Bytes → R OutError (Nat × Bytes)) : Passes (Out.send K c buf f) := by
  unfold Out.send
  exact .bind (Tame.withRng _).passes fun _ => .bind (.lift _) fun _ => .bind (.lift _) fun _ =>
    .bind (.lift _) fun _ => .bind (.event rfl) fun _ => .bind (.mapErr (Tame.writeAll _).passes _)
    fun _ => .pure _

theorem Passes.clientSend (m : Message) : Passes (Client.send K .none st m) := by
  unfold Client.send
  exact .bind (.mapErr (.out K _ _ _) _) fun _ => .pure _

theorem Passes.clientEvent (e : Client.Ev) : Passes (Client.event K st e) := by
  cases e with
  | stdout i r =>
    rw [Client.event]
    split
    · exact .pure _
    · split
      · exact .panic
      · refine .bind (.event rfl) fun _ => .ite (.clientSend K _ _) ?_
        exact .bind (.clientSend K _ _) fun _ => .clientSend K _ _
  | stderr i r =>
    rw [Client.event]
    split
    · exact .pure _
    · split
      · exact .panic
      · exact .bind (.event rfl) fun _ => .ite (.clientSend K _ _) (.pure _)
  | exit i status =>
    rw [Client.event]
    split
    · exact .pure _
    · split
      · exact .panic
      · exact .bind (.event rfl) fun _ => .bind (.lift _) fun _ => .clientSend K _ _

end passes

/-- a packet is received in the step, or only such events come from it -/
def PassesOr (s s' : IoSt) : Prop :=
  ∃ u, s'.log = s.log ++ u ∧ (Spec.payloads u = [] → ∀ e ∈ u, Spec.passing e = true)

theorem PassesOr.same {s s' : IoSt} (h : s'.log = s.log) : PassesOr s s' := ⟨[], by rw [h]; simp, by simp⟩

theorem PassesOr.trans {s s' s'' : IoSt} (h : PassesOr s s') (h' : PassesOr s' s'') : PassesOr s s'' := by
  obtain ⟨u, h1, h2⟩ := h
  obtain ⟨v, h3, h4⟩ := h'
  refine ⟨u ++ v, by rw [h3, h1, List.append_assoc], fun hp e he => ?_⟩
  rw [payloads_append] at hp
  obtain ⟨p1, p2⟩ := List.append_eq_nil_iff.mp hp
  rcases List.mem_append.mp he with he | he
  · exact h2 p1 e he
  · exact h4 p2 e he

theorem Passes.or {ε α : Type} {x : M ε α} (h : Passes x) (s : IoSt) : PassesOr s (x s).2 := by
  obtain ⟨u, h1, h2⟩ := h s
  exact ⟨u, h1, fun _ => h2⟩

theorem passes_message (K : Crypto) (H : ConnHandlers) (user : Nat) (cut : Client.Cut) {st : Client.St}
    (hb : 4 ≤ st.buf.length) (s : IoSt) : PassesOr s (Client.message K H user cut st s).2 := by
  have main : PassesOr s ((do
      let (payload, receive, buf) ← (In.recv K st.receive st.buf).mapErr (fun e => Client.Stop.recv e.1)
      let m ← M.lift (Message.parse payload).unwrap
      Client.handle K H user cut { st with receive, buf } m :
      M Client.Stop (Client.St ⊕ Unit)) s).2 := by
    rcases In.recv_outcome K st.receive st.buf s hb with ⟨e, i, g⟩ | ⟨_, i, g⟩ | ⟨_, p, c', buf', i, g, _⟩
    · rw [M.bind_err (by rw [M.mapErr_run, g]; rfl)]
      exact .same rfl
    · rw [M.bind_panic (by rw [M.mapErr_run, g]; rfl)]
      exact .same rfl
    · rw [M.bind_ok (by rw [M.mapErr_run, g]; rfl)]
      obtain ⟨u, hu, -⟩ := Quiet.bind (Quiet.lift (Message.parse p).unwrap)
        (fun m => Quiet.handle K H user cut { st with receive := c', buf := buf' } m)
        { s with inp := i, log := s.log ++ [.received p] }
      exact ⟨.received p :: u, hu.trans (by simp), nofun⟩
  cases cut with
  | read n =>
    refine .same ?_
    show (Client.readCut K n st s).2.log = s.log
    unfold Client.readCut
    split
    · rfl
    · simp only
      split
      · rfl
      · split
        · split <;> rfl
        · rfl
  | _ => exact main

theorem passes_step (K : Crypto) (H : ConnHandlers) (user : Nat) {st : Client.St} (hb : 4 ≤ st.buf.length)
    (a : Client.Step) (s : IoSt) : PassesOr s (Client.step K H user st a s).2 := by
  have hev : ∀ (st : Client.St) (e : Client.Ev),
      Passes (do pure (.inl (← Client.event K st e)) : M Client.Stop (Client.St ⊕ Unit)) :=
    fun st e => .bind (.clientEvent K st e) fun _ => .pure _
  cases a with
  | message => exact passes_message K H user .none hb s
  | event cut e =>
    by_cases hc : cut = .none
    · subst hc
      exact (hev st e).or s
    · have : Client.step K H user st (.event cut e) = (do
          match ← Client.dropReceive (Client.message K H user cut st) with
          | .inl st => do pure (.inl (← Client.event K st e))
          | .inr () => pure (.inr ())) := by
        cases cut with
        | none => exact absurd rfl hc
        | _ => rfl
      rw [this]
      have hd : PassesOr s (Client.dropReceive (Client.message K H user cut st) s).2 := by
        have h1 := passes_message K H user cut hb s
        have : (Client.dropReceive (Client.message K H user cut st) s).2 = (Client.message K H user cut st s).2 := by
          unfold Client.dropReceive
          split
          · rename_i heq
            rw [heq]
          · rfl
        rw [this]
        exact h1
      rw [M.bind_run]
      revert hd
      rcases Client.dropReceive (Client.message K H user cut st) s with ⟨r, s1⟩
      intro hd
      cases r with
      | ok x =>
        cases x with
        | inl st => exact hd.trans ((hev st e).or s1)
        | inr _ => exact hd
      | err e => exact hd
      | panic => exact hd

theorem passes_attempt (K : Crypto) (H : Handlers) (sid : Bytes) {st : AuthSt} (hst : st.Ok) (s : IoSt) :
    PassesOr s (Server.attempt K H sid st s).2 := by
  rcases In.recv_outcome K st.receive st.pktBuf s (by rw [hst.pkt]; omega) with
    ⟨e, i, g⟩ | ⟨_, i, g⟩ | ⟨_, p, c', buf', i, g, _⟩
  · rw [Server.attempt, M.bind_err (by rw [M.mapErr_run, g]; rfl)]
    exact .same rfl
  · rw [Server.attempt, M.bind_panic (by rw [M.mapErr_run, g]; rfl)]
    exact .same rfl
  · obtain ⟨t, ht⟩ := attempt_starts (H := H) (sid := sid) hst g
    exact ⟨_, ht, nofun⟩

/-- from some moment after the handshake on: a packet is received, or only such events happen -/
theorem passes_more (hid : Spec.Fits cfg.ident) (s : IoSt) (as more : List Client.Step) {e : Ends}
    (he : endsOf (Spec.alone cfg s as).phase = some e) (hf : e.fine) :
    PassesOr (Spec.alone cfg s as).io (Spec.alone cfg s (as ++ more)).io := by
  induction more using list_snoc_induction with
  | nil => rw [List.append_nil]; exact .same rfl
  | snoc more a ih =>
    have hinv := (alone_inv hid s (as ++ more)).2
    have hca := carries_more hid s as more he hf
    rw [← List.append_assoc, alone_snoc]
    refine ih.trans ?_
    generalize (Spec.alone cfg s as).io = io0 at hca
    generalize Spec.alone cfg s (as ++ more) = c at hca hinv
    obtain ⟨phase, io⟩ := c
    obtain ⟨hca, hca2⟩ := hca
    cases phase with
    | new => cases hca2 rfl
    | service cl => cases hca2 rfl
    | auth sid st =>
      obtain ⟨g1, g2, _⟩ := hinv
      have := passes_attempt cfg.K cfg.H sid g2 io
      unfold Conn.poll
      simp only [Phase.step, M.bind_run]
      rcases hx : attempt cfg.K cfg.H sid st io with ⟨r, io1⟩
      rw [hx] at this
      cases r with
      | ok x => cases x <;> exact this
      | err e => exact this
      | panic => exact this
    | session user st =>
      replace hca : Carries cfg.K True True e io0 io (some st.ends) := hca
      have hb : st.buf.length = 35000 := hca.isFine
      have := passes_step cfg.K cfg.C user (by rw [hb]; omega) a io
      unfold Conn.poll
      simp only [Phase.step, M.bind_run, M.mapErr_run]
      rcases hx : Client.step cfg.K cfg.C user st a io with ⟨r, io1⟩
      rw [hx] at this
      cases r with
      | ok x => cases x <;> exact this
      | err e => exact this
      | panic => exact this
    | ended => exact .same rfl

/-- C115: from then on, the session can only pass on what comes from the processes that it has: no process is started,
nothing is given to one, no standard input is closed. -/
theorem C115_idle (cfg : Config) (hid : Spec.Fits cfg.ident) (ops post : List Op) {i : Nat} {c : Conn}
    {s s1 : IoSt} {as : List Client.Step} {cl : HostClient} {t : List Event} (qs : List (Bytes × Bytes × Bytes))
    (hc : (run cfg ops).conns[i]? = some c) (ho : Spec.own i ops = some (s, as))
    (hh : Host.handleNewClient cfg.K cfg.ident s = (ok cl, s1))
    (hqs : ∀ x ∈ qs, Spec.PacketOf .b8 false x.1 x.2.1 x.2.2)
    (hin : Spec.InPlace cfg.K (Spec.keysOf cl.receiveCipher) 3 (qs.map (·.2.2)) s1.inp)
    (ht : c.io.log = s.log ++ t) (hne : t ≠ [])
    (hlost : (Spec.packets cfg.K (Spec.keysOf cl.receiveCipher) 3
      ((qs.map (·.2.2)).take (Spec.payloads t).length)).length + c.io.inp.length < s1.inp.length) :
    ∃ c' t', (run cfg (ops ++ post)).conns[i]? = some c' ∧ c'.io.log = c.io.log ++ t' ∧
      ∀ e ∈ t', Spec.passing e = true := by
  obtain ⟨c', t', h1, h2, h3⟩ := C115_deaf cfg hid ops post qs hc ho hh hqs hin ht hne hlost
  refine ⟨c', t', h1, h2, ?_⟩
  obtain ⟨s', as0, more0, g1, g2, -⟩ := conn_of_run hc
  rw [ho] at g1
  cases g1
  subst g2
  obtain ⟨more, hrun⟩ := run_more hc post
  rw [h1] at hrun
  cases hrun
  have hf := flow_inv hid s as0
  have hpass := fun e => passes_more hid s as0 more (e := e)
  have hend := alone_after (cfg := cfg) s as0 more
  generalize Spec.alone cfg s (as0 ++ more) = c' at h2 hpass hend
  generalize Spec.alone cfg s as0 = c at hf hpass hend ht h2
  have main : ∀ e, endsOf c.phase = some e → Since cfg s as0 c.io (some e) → ∀ e ∈ t', Spec.passing e = true := by
    rintro e he ⟨_, _, _, _, _, _, _, _, _, _, _, _, _, g7⟩
    obtain ⟨-, -, m1, -⟩ := g7 e rfl
    obtain ⟨u, k1, k2⟩ := hpass e he m1
    rw [h2] at k1
    cases List.append_cancel_left k1
    exact k2 h3
  have hlog : c.io.log = s.log → False := fun h => hne (by simpa [h] using ht)
  cases hp : c.phase with
  | new =>
    rw [FlowInv, hp] at hf
    exact absurd (by rw [hf]) hlog
  | service cl' =>
    rw [FlowInv, hp] at hf
    exact absurd ((handshake_session hid hf).2.2.2.2.1) hlog
  | auth sid st =>
    rw [FlowInv, hp] at hf
    exact main _ (by rw [hp]; rfl) hf
  | session user st =>
    rw [FlowInv, hp] at hf
    exact main _ (by rw [hp]; rfl) hf
  | ended =>
    rw [hend hp] at h2
    have : t' = [] := by simpa using h2
    rw [this]
    simp

/-! ### examples -/

/-- the first byte of a packet is read, the rest is not, and nothing else happens -/
theorem poll_cut {user : Nat} {st : Client.St} {io : IoSt} (h : io.inp = [9]) :
    ∃ st', Conn.poll cfg (.event (.read 1) (.exit st.waits.length none)) ⟨.session user st, io⟩ =
      (⟨.session user st', { io with inp := [] }⟩, false) := by
  refine ⟨{ st with buf := [9] ++ st.buf.drop 1 }, ?_⟩
  unfold Conn.poll
  simp only [Phase.step, M.bind_run, M.mapErr_run, Client.step, Client.dropReceive, Client.message, Client.readCut, h]
  have : ∀ st' : Client.St, st'.waits = st.waits → ∀ s : IoSt,
      Client.event cfg.K st' (.exit st.waits.length none) s = (ok st', s) := by
    intro st' h s
    simp only [Client.event, h]
    rw [List.getElem?_eq_none (Nat.le_refl _)]
    rfl
  simp [this, M.bind_run]

theorem whole_places : ∀ x ∈ wholeTags, ∀ i : Fin 6,
    Spec.mac .flat flatKeys (3 + i) ((wholeInput.drop (x.1 - x.2)).take x.2) = (wholeInput.drop x.1).take 16 →
    wholeInput.take (x.1 - x.2) = Spec.packets .flat flatKeys 3 ((wholePayloads.map spkt).take i) ∧
    (wholePayloads[i.val]?).any (fun p => (wholeInput.drop (x.1 - x.2)).take x.2 ==
      Spec.sealLength .flat flatKeys (3 + i) ((spkt p).take 4) ++
        Spec.sealBody .flat flatKeys (3 + i) ((spkt p).drop 4)) = true := by
  decide +kernel

/-- each packet of this input is there once -/
theorem whole_inPlace : Spec.InPlace .flat flatKeys 3 (wholePayloads.map spkt) wholeInput := by
  intro pre cov post i hi h
  have hl := congrArg List.length h
  rw [show wholeInput.length = 277 by decide +kernel] at hl
  simp only [List.length_append, mac_length] at hl
  have hcov : cov = (wholeInput.drop pre.length).take cov.length := by rw [h]; simp
  have hpre : pre = wholeInput.take pre.length := by rw [h]; simp
  have htag : Spec.mac .flat flatKeys (3 + i) cov = (wholeInput.drop (pre.length + cov.length)).take 16 := by
    rw [h, List.append_assoc, ← List.length_append, List.drop_left, List.take_append_of_le_length
      (by simp), List.take_of_length_le (by simp)]
  have hmac : Spec.mac .flat flatKeys (3 + i) cov = b! "poly" ++ (Spec.u32 cov.length ++
      Spec.u64 ((Spec.macKey .flat flatKeys (3 + i) ++ cov).foldl
        (fun a b => (a * 257 + b.toNat + 1) % 2 ^ 64) 0)) := by
    show markedTag _ _ = _
    rw [markedTag, List.append_assoc]
  obtain ⟨x, hx, h1, h2⟩ := whole_marks ⟨pre.length + cov.length, by omega⟩ (by
    have := congrArg (List.take 4) (htag.symm.trans hmac)
    rw [List.take_take] at this
    exact this)
  simp only at h1 h2
  have h3 : Spec.u32 cov.length = Spec.u32 x.2 := by
    rw [← h2]
    have := congrArg (fun l => (l.drop 4).take 4) (htag.symm.trans hmac)
    simp only [List.drop_take, List.take_take, List.drop_drop] at this
    exact this.symm
  have hx2 : ∀ x ∈ wholeTags, x.2 < 100 := by decide
  have h4 := u32_inj (by omega) (by have := hx2 x hx; omega) h3
  have h5 := whole_places x hx ⟨i, by simp at hi; exact Nat.lt_succ_of_le hi⟩
  rw [show x.1 - x.2 = pre.length by omega, ← h4, h1, ← hcov] at h5
  replace h5 := h5 htag
  simp only at h5
  rw [← hpre] at h5
  cases h6 : wholePayloads[i]? with
  | none => rw [h6] at h5; cases h5.2
  | some p =>
    rw [h6] at h5
    exact ⟨spkt p, by rw [List.getElem?_map, h6]; rfl, h5.1, beq_iff_eq.mp h5.2⟩

-- The premises of C115 hold for a client whose process was started: its next packet is `[9]` and more; the read of it
-- is interrupted after this byte. The client is still connected afterwards, and nothing more is received from it.
example : ∃ (ops : List Op) (b : Client.Step) (c1 : Conn),
    (run wholeConfig (ops ++ [.poll 0 b])).running = true ∧
    (run wholeConfig (ops ++ [.poll 0 b])).conns[0]? = some c1 ∧ c1.phase ≠ .ended ∧ c1.io.log = wholeLog ∧
    ∀ post, ∃ c' t', (run wholeConfig (ops ++ .poll 0 b :: post)).conns[0]? = some c' ∧
      c'.io.log = wholeLog ++ t' ∧ Spec.payloads t' = [] := by
  obtain ⟨ops, m, st, io, h0, h1, h2, h3⟩ := whole_run
  obtain ⟨c, s1, g1, g2, -, g4⟩ := flat_session wholePayloads [9]
  have hqs : ∀ x ∈ wholeSent, Spec.PacketOf .b8 false x.1 x.2.1 x.2.2 := by
    intro x hx
    obtain ⟨p, hp, rfl⟩ := List.mem_map.mp hx
    have : ∀ p ∈ wholePayloads, Spec.PacketOf .b8 false p
        (List.replicate (4 + (8 - (p.length + 5) % 8) % 8) 0) (spkt p) := by
      intro p hp
      have : p.length ≤ 30000 := by revert p; decide
      refine ⟨?_, ?_, ?_, ?_, ?_⟩
      · rw [List.length_replicate]; rfl
      all_goals first
        | (rw [List.length_replicate]; omega)
        | (rw [List.length_replicate]; show (0 + (1 + p.length + _)) % 8 = 0; omega)
    exact this p hp
  have hmap : wholeSent.map (·.2.2) = wholePayloads.map spkt := by rw [wholeSent, List.map_map]; rfl
  have hin : Spec.InPlace wholeConfig.K (Spec.keysOf c.receiveCipher) 3 (wholeSent.map (·.2.2)) s1.inp := by
    rw [hmap, g2, g4]
    exact whole_inPlace
  have hcut : ¬ Spec.ReadCut (List.replicate m Client.Step.message) := by
    rintro ⟨n, e, h⟩
    cases List.eq_of_mem_replicate h
  have hne : wholeLog ≠ [] := by simp [wholeLog]
  have ht : io.log = (clientState wholePayloads [9]).log ++ wholeLog := by rw [h3]; rfl
  have hnine : io.inp = [9] := by
    obtain ⟨u, hu, htk⟩ := C67_packets wholeConfig (by decide) ops h2 h1 hcut (by simp) g1 ht hne
    have hpk := taken_packets htk io.inp _ (hu ▸ hin)
    rw [hmap, g2] at hpk
    have : u = conversation 3 wholePayloads := hpk.trans (by decide +kernel)
    rw [g4, this] at hu
    exact (List.append_cancel_left hu).symm
  obtain ⟨st', hst⟩ := poll_cut (cfg := wholeConfig) (user := 1000) (st := st) hnine
  have hrun : run wholeConfig (ops ++ [.poll 0 (.event (.read 1) (.exit st.waits.length none))]) =
      ⟨(run wholeConfig ops).conns.set 0 ⟨.session 1000 st', { io with inp := [] }⟩, true⟩ := by
    rw [run_snoc]
    unfold State.step
    rw [h0]
    simp only [h2, if_true, hst]
    rfl
  have hc1 : (run wholeConfig (ops ++ [.poll 0 (.event (.read 1) (.exit st.waits.length none))])).conns[0]? =
      some ⟨.session 1000 st', { io with inp := [] }⟩ := by
    rw [hrun]
    exact List.getElem?_set_self (List.getElem?_eq_some_iff.mp h2).1
  refine ⟨ops, _, _, by rw [hrun], hc1, by simp, h3, fun post => ?_⟩
  have := C115_interrupted wholeConfig (by decide) ops post _ wholeSent h0 h2 h1 hcut (by simp) g1 hqs hin ht hne
    hc1 ht rfl (by rw [hnine]; simp)
  simp only [h3] at this
  exact this

end Nora
