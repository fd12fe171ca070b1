import Verif.Lemmas.AuthRun
import Verif.Lemmas.ConnTrace
/-
The packets received in a session are those the client has sent, also in the last step.
-/
namespace Nora
open R

/-- the computation receives nothing -/
def Quiet {ε α : Type} (x : M ε α) : Prop :=
  ∀ s, ∃ u, (x s).2.log = s.log ++ u ∧ Spec.payloads u = []

section quiet
variable {ε ε' α β : Type}

theorem Tame.quiet {x : M ε α} (h : Tame x) : Quiet x := fun s => ⟨[], by rw [(h s).1]; simp, rfl⟩

theorem Quiet.bind {x : M ε α} {f : α → M ε β} (hx : Quiet x) (hf : ∀ a, Quiet (f a)) :
    Quiet (x >>= f) := by
  intro s
  obtain ⟨t, ht, ht'⟩ := hx s
  rw [M.bind_run]
  revert ht
  rcases x s with ⟨r, s'⟩
  intro ht
  cases r with
  | ok a =>
    obtain ⟨u, hu, hu'⟩ := hf a s'
    exact ⟨t ++ u, by rw [← List.append_assoc, ← ht]; exact hu, by rw [payloads_append, ht', hu']; rfl⟩
  | err e => exact ⟨t, ht, ht'⟩
  | panic => exact ⟨t, ht, ht'⟩

theorem Quiet.mapErr {x : M ε α} (hx : Quiet x) (f : ε → ε') : Quiet (x.mapErr f) := hx
theorem Quiet.lift (x : R ε α) : Quiet (M.lift x) := (Tame.lift x).quiet
theorem Quiet.pure (x : α) : Quiet (Pure.pure x : M ε α) := (Tame.pure x).quiet
theorem Quiet.fail (e : ε) : Quiet (M.fail e : M ε α) := (Tame.fail e).quiet
theorem Quiet.panic : Quiet (M.panic : M ε α) := fun _ => ⟨[], by simp [M.panic], rfl⟩
theorem Quiet.getLog : Quiet (M.getLog : M ε (List Event)) := fun _ => ⟨[], by simp [M.getLog], rfl⟩
theorem Quiet.proc (e : ProcEvent) : Quiet (M.logEvent (.proc e) : M ε Unit) :=
  fun s => ⟨[.proc e], by rw [M.logEvent_run], rfl⟩
theorem Quiet.sent (p : Bytes) : Quiet (M.logEvent (.sent p) : M ε Unit) :=
  fun s => ⟨[.sent p], by rw [M.logEvent_run], rfl⟩
theorem Quiet.ite {c : Prop} {_ : Decidable c} {x y : M ε α} (hx : Quiet x) (hy : Quiet y) :
    Quiet (if c then x else y) := by
  split_ifs <;> assumption

end quiet

section client
variable (K : Crypto) (H : ConnHandlers) (user : Nat) (cut : Client.Cut) (st : Client.St)

theorem Quiet.out (c : ChaCha) (buf : Bytes)
    (f : Bytes → R OutError (Nat × Bytes)) : Quiet (Out.send K c buf f) := by
  unfold Out.send
  exact .bind (Tame.withRng _).quiet fun _ => .bind (.lift _) fun _ => .bind (.lift _) fun _ =>
    .bind (.lift _) fun _ => .bind (.sent _) fun _ => .bind (.mapErr (Tame.writeAll _).quiet _)
    fun _ => .pure _

theorem Quiet.seal (c : ChaCha) (buf : Bytes)
    (f : Bytes → R OutError (Nat × Bytes)) : Quiet (Out.seal K c buf f) := by
  unfold Out.seal
  exact .bind (Tame.withRng _).quiet fun _ => .bind (.lift _) fun _ => .bind (.lift _) fun _ =>
    .bind (.lift _) fun _ => .bind (.sent _) fun _ => .pure _

theorem Quiet.clientSend (m : Message) : Quiet (Client.send K cut st m) := by
  unfold Client.send
  split
  · refine .bind (.mapErr (.seal K _ _ _) _) fun _ => ?_
    exact .ite (.bind (.mapErr (Tame.writeAll _).quiet _) fun _ => .fail _)
      (.bind (.mapErr (Tame.writeAll _).quiet _) fun _ => .pure _)
  · exact .bind (.mapErr (.out K _ _ _) _) fun _ => .pure _

theorem Quiet.closeStdin (ch : Client.Chan) : Quiet (Client.closeStdin ch) := by
  unfold Client.closeStdin
  split
  · exact .proc _
  · exact .pure _

theorem Quiet.opened (o : Chan.Open) : Quiet (Client.opened K cut st o) := by
  unfold Client.opened
  exact .bind (.lift _) fun _ => .clientSend K _ _ _

theorem Quiet.spawn (id : UInt32) (ch : Client.Chan) (ty : SpawnType) :
    Quiet (Client.spawn H user cut st id ch ty) := by
  unfold Client.spawn
  refine .bind .getLog fun _ => .bind (.proc _) fun _ => .ite (.fail _) ?_
  exact .bind (.lift _) fun _ => .bind (.proc _) fun _ => .bind (.closeStdin _) fun _ => .pure _

theorem Quiet.reply (w : Bool) (m : Message) : Quiet (Client.reply K cut st w m) := by
  unfold Client.reply
  exact .ite (.clientSend K _ _ _) (.pure _)

theorem Quiet.run (r : Chan.Request) (ch : Client.Chan) (ty : SpawnType) :
    Quiet (Client.run K H user cut st r ch ty) := by
  unfold Client.run
  exact .bind (.spawn H user _ _ _ _ _) fun _ => .bind (.reply K _ _ _ _) fun _ => .pure _

theorem Quiet.request (r : Chan.Request) : Quiet (Client.request K H user cut st r) := by
  unfold Client.request
  split
  · exact .panic
  · refine .bind (.lift _) fun q => ?_
    cases q with
    | shell => exact .run K H user _ _ _ _ _
    | exec => exact .run K H user _ _ _ _ _
    | pty => exact .reply K _ _ _ _
    | env => exact .reply K _ _ _ _
    | _ => exact .panic

theorem Quiet.data (d : Chan.Data) : Quiet (Client.data H cut st d) := by
  unfold Client.data
  split
  · exact .panic
  · split
    · exact .panic
    · exact .ite (.fail _) (.bind .getLog fun _ => .bind (.lift _) fun _ => .bind (.proc _) fun _ => .pure _)

theorem Quiet.eof (e : Chan.ChanOnly) : Quiet (Client.eof st e) := by
  unfold Client.eof
  split
  · exact .panic
  · exact .bind (.closeStdin _) fun _ => .pure _

theorem Quiet.close (c : Chan.ChanOnly) : Quiet (Client.close st c) := by
  unfold Client.close
  split
  · exact .pure _
  · exact .bind (.closeStdin _) fun _ => .pure _

theorem Quiet.handle (m : Message) : Quiet (Client.handle K H user cut st m) := by
  unfold Client.handle
  split
  · exact .bind (.opened K _ _ _) fun _ => .pure _
  · exact .bind (.request K H user _ _ _) fun _ => .pure _
  · exact .bind (.data H _ _ _) fun _ => .pure _
  · exact .bind (.eof _ _) fun _ => .pure _
  · exact .bind (.close _ _) fun _ => .pure _
  · exact .pure _
  · exact .pure _
  all_goals exact .panic

theorem Quiet.event (e : Client.Ev) : Quiet (Client.event K st e) := by
  cases e with
  | stdout i r =>
    rw [Client.event]
    split
    · exact .pure _
    · split
      · exact .panic
      · refine .bind (.proc _) fun _ => .ite (.clientSend K _ _ _) ?_
        exact .bind (.clientSend K _ _ _) fun _ => .clientSend K _ _ _
  | stderr i r =>
    rw [Client.event]
    split
    · exact .pure _
    · split
      · exact .panic
      · exact .bind (.proc _) fun _ => .ite (.clientSend K _ _ _) (.pure _)
  | exit i status =>
    rw [Client.event]
    split
    · exact .pure _
    · split
      · exact .panic
      · exact .bind (.proc _) fun _ => .bind (.lift _) fun _ => .clientSend K _ _ _

end client

/-- as far as both go, the packets received are the packets `ps`; more can be received only if
another packet follows these -/
def Along (X : Ctx) (t : List Event) (ps : List Bytes) (rest : Bytes) : Prop :=
  Spec.payloads t <+: ps ∨ (ps <+: Spec.payloads t ∧
    ∃ p rest', Spec.Arrive X.K X.kr (X.m0 + ps.length) [p] rest rest')

/-- at the end of the input -/
theorem In.recv_nil (K : Crypto) (c : ChaCha) {buf : Bytes} {s : IoSt} (hb : 4 ≤ buf.length)
    (hi : s.inp = []) : In.recv K c buf s = (err (.read, c, buf), { s with inp := [] }) := by
  rw [In.recv]
  simp only [splitAtP, hb, if_true, M.lift_ok_bind]
  rw [M.bind_err]
  rw [M.mapErr_run, M.readExact, hi]
  rfl

section
variable {X : Ctx} {t : List Event} {st : Client.St} {s : IoSt} {ps : List Bytes} {rest : Bytes}

theorem Along.quiet {u : List Event} (h : Along X t ps rest) (hu : Spec.payloads u = []) :
    Along X (t ++ u) ps rest := by
  rw [Along, payloads_append, hu, List.append_nil]
  exact h

theorem message_along (hg : Good X t st s) (hA : ∀ n, ¬ X.A (.read n))
    (hs : Spec.Arrive X.K X.kr X.m0 ps X.inp0 rest) (h : Along X t ps rest) {cut : Client.Cut}
    (hcut : cut = .none ∨ X.A cut) :
    ∃ u, (Client.message X.K X.H X.user cut st s).2.log = X.l0 ++ u ∧ Along X u ps rest := by
  have main : ∃ u, ((do
      let (payload, receive, buf) ← (In.recv X.K st.receive st.buf).mapErr (fun e => Client.Stop.recv e.1)
      let m ← M.lift (Message.parse payload).unwrap
      Client.handle X.K X.H X.user cut { st with receive, buf } m :
      M Client.Stop (Client.St ⊕ Unit)) s).2.log = X.l0 ++ u ∧ Along X u ps rest := by
    rcases hg.link.recv with ⟨hL, e, s', h1, h2⟩ | ⟨ho, s', h1, h2⟩ | ⟨p, c', buf', s', h1, h2⟩
    · rw [M.bind_err (by rw [M.mapErr_run, h1]; rfl)]
      exact ⟨t, by rw [h2, hg.link.log], h⟩
    · rw [M.bind_panic (by rw [M.mapErr_run, h1]; rfl)]
      exact ⟨t, by rw [h2, hg.link.log], h⟩
    · rw [M.bind_ok (by rw [M.mapErr_run, h1]; rfl)]
      have hp : Along X (t ++ [.received p]) ps rest := by
        have hr : Spec.payloads (t ++ [.received p]) = Spec.payloads t ++ [p] := by
          rw [payloads_append]; rfl
        rcases Nat.lt_or_ge (Spec.payloads t).length ps.length with hlt | hge
        · exact .inl (h2.inp hA ps rest hs (by rw [hr, List.length_append, List.length_singleton]; omega)).1
        · refine .inr ?_
          rw [hr]
          rcases h with h | h
          · have he := h.eq_of_length_le hge
            refine ⟨by rw [he]; exact List.prefix_append _ _, p, s'.inp, ?_⟩
            have hin := (hg.link.inp hA ps rest hs h.length_le).2
            rw [he, List.drop_length] at hin
            have hin : s.inp = rest := hin
            obtain ⟨raw, f1, f2, f3⟩ := In.recv_sealed (by rw [hg.link.buf]; omega) h1
            refine ⟨raw, _, f1, by rw [hg.link.buf] at f2; exact f2, ?_, rfl⟩
            rw [hin, hg.link.receiveKeys, hg.link.receiveCounter, he] at f3
            exact f3
          · exact ⟨h.1.trans (List.prefix_append _ _), h.2⟩
      obtain ⟨u, hu, hu'⟩ := Quiet.bind (Quiet.lift (Message.parse p).unwrap)
        (fun m => Quiet.handle X.K X.H X.user cut { st with receive := c', buf := buf' } m) s'
      exact ⟨_, by rw [← List.append_assoc, ← h2.log]; exact hu, hp.quiet hu'⟩
  rcases hcut with rfl | hc
  · exact main
  · cases cut with
    | read n => exact absurd hc (hA n)
    | _ => exact main

theorem step_along (hg : Good X t st s) (hA : ∀ n, ¬ X.A (.read n))
    (hs : Spec.Arrive X.K X.kr X.m0 ps X.inp0 rest) (h : Along X t ps rest) {a : Client.Step}
    (ha : Allowed X a) :
    ∃ u, (Client.step X.K X.H X.user st a s).2.log = X.l0 ++ u ∧ Along X u ps rest := by
  have more : ∀ {x : M Client.Stop (Client.St ⊕ Unit)} {s1 : IoSt} {u}, Quiet x →
      s1.log = X.l0 ++ u → Along X u ps rest → ∃ u, (x s1).2.log = X.l0 ++ u ∧ Along X u ps rest := by
    intro x s1 u hx h1 h2
    obtain ⟨v, h3, h4⟩ := hx s1
    exact ⟨u ++ v, by rw [h3, h1, List.append_assoc], h2.quiet h4⟩
  have hev : ∀ (st : Client.St) (e : Client.Ev),
      Quiet (do pure (.inl (← Client.event X.K st e)) : M Client.Stop (Client.St ⊕ Unit)) :=
    fun st e => .bind (.event X.K st e) fun _ => .pure _
  cases a with
  | message => exact message_along hg hA hs h (.inl rfl)
  | event cut e =>
    by_cases hc : cut = .none
    · subst hc
      exact more (hev st e) hg.link.log h
    · have hA' : X.A cut := by
        rcases ha.1 with h | h
        · exact absurd h hc
        · exact h
      have : Client.step X.K X.H X.user st (.event cut e) = (do
          match ← Client.dropReceive (Client.message X.K X.H X.user cut st) with
          | .inl st => do pure (.inl (← Client.event X.K st e))
          | .inr () => pure (.inr ())) := by
        cases cut with
        | none => exact absurd rfl hc
        | _ => rfl
      rw [this]
      obtain ⟨u, h1, h2⟩ := message_along hg hA hs h (cut := cut) (.inr hA')
      have hd : (Client.dropReceive (Client.message X.K X.H X.user cut st) s).2.log = X.l0 ++ u := by
        rw [← h1]
        unfold Client.dropReceive
        split
        · rename_i heq
          rw [heq]
        · rfl
      rw [M.bind_run]
      revert hd
      rcases Client.dropReceive (Client.message X.K X.H X.user cut st) s with ⟨r, s1⟩
      intro hd
      cases r with
      | ok x =>
        cases x with
        | inl st => exact more (hev st e) hd h2
        | inr _ => exact ⟨u, hd, h2⟩
      | err e => exact ⟨u, hd, h2⟩
      | panic => exact ⟨u, hd, h2⟩

theorem steps_along (hA : ∀ n, ¬ X.A (.read n)) (hs : Spec.Arrive X.K X.kr X.m0 ps X.inp0 rest)
    {as : List Client.Step} : ∀ {t : List Event} {st : Client.St} {s : IoSt},
    Spec.Trace X.H X.user X.A X.l0 t → Good X t st s → (∀ a ∈ as, Allowed X a) → Along X t ps rest →
    ∃ u, (Client.steps X.K X.H X.user st as s).2.log = X.l0 ++ u ∧ Along X u ps rest := by
  induction as with
  | nil => exact fun _ hg _ h => ⟨_, hg.link.log, h⟩
  | cons a as ih =>
    intro t st s ht hg ha h
    rw [Client.steps, M.bind_run]
    have h1 := step_cases ht hg (ha a (by simp))
    obtain ⟨u, h2, h3⟩ := step_along hg hA hs h (ha a (by simp))
    rcases hx : Client.step X.K X.H X.user st a s with ⟨r, s1⟩
    rw [hx] at h1 h2
    cases h1 with
    | on h4 h5 =>
      refine ih h4 h5 (fun x hx => ha x (List.mem_cons_of_mem _ hx)) ?_
      rw [h5.link.log] at h2
      rw [List.append_cancel_left h2]
      exact h3
    | ended h4 h5 h6 =>
      cases r with
      | ok x =>
        cases x with
        | inl st => nomatch h5
        | inr _ => exact ⟨u, h2, h3⟩
      | err e => exact ⟨u, h2, h3⟩
      | panic => exact ⟨u, h2, h3⟩

end

end Nora
