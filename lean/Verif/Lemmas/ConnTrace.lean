import Verif.Lemmas.ConnRun
/-
The log of a session: what comes before and after an event.
-/
namespace Nora
open R

/-- `receive` is dropped at `cut` somewhere in the schedule -/
def Spec.Drops (sched : List Client.Step) (cut : Client.Cut) : Prop := ∃ e, .event cut e ∈ sched

/-- output of a process cannot be read, or a process cannot be waited for, somewhere in the schedule -/
def Spec.ReadFails (sched : List Client.Step) : Prop :=
  ∃ cut i, .event cut (.stdout i none) ∈ sched ∨ .event cut (.stderr i none) ∈ sched ∨
    .event cut (.exit i none) ∈ sched

/-- the session of a client after authentication -/
def Ctx.of (K : Crypto) (H : ConnHandlers) (user : Nat) (a : Authenticated)
    (sched : List Client.Step) (s : IoSt) : Ctx where
  K := K
  H := H
  user := user
  A := Spec.Drops sched
  W := s.wcap ≠ none
  F := Spec.ReadFails sched
  l0 := s.log
  ks := Spec.keysOf a.send
  kr := Spec.keysOf a.receive
  n0 := a.send.counter.toNat
  m0 := a.receive.counter.toNat
  inp0 := s.inp
  out0 := s.out

theorem Good.start (K : Crypto) (H : ConnHandlers) (user : Nat) (a : Authenticated)
    (sched : List Client.Step) (s : IoSt) :
    Good (Ctx.of K H user a sched s) [] (Client.start a) s := by
  refine ⟨⟨(List.append_nil _).symm, id, ?_, rfl, rfl, rfl, rfl, ?_, ?_⟩, Agrees.init a⟩
  · exact List.length_replicate
  · intro _
    exact ⟨[], (List.append_nil _).symm, rfl⟩
  · intro _ ps rest h _
    exact ⟨List.nil_prefix, h⟩

/-- what an observer can say about the log of a session with the result `r` -/
inductive Whole (X : Ctx) (r : R Client.Stop (Client.St ⊕ Unit)) (s' : IoSt) : List Event → Prop
  | on {st : Client.St} {t : List Event} : r = ok (.inl st) → Spec.Trace X.H X.user X.A X.l0 t →
    Good X t st s' → Whole X r s' t
  | ended {t b : List Event} : Spec.Trace X.H X.user X.A X.l0 t →
    Spec.Ending X.H X.user X.A X.W (X.O t) (X.L t) X.F X.l0 t r b → Whole X r s' (t ++ b)

section
variable {K : Crypto} {H : ConnHandlers} {user : Nat} {a : Authenticated} {sched : List Client.Step}
  {s s' : IoSt} {r : R Client.Stop (Client.St ⊕ Unit)}

theorem session_log (hrun : Client.steps K H user (Client.start a) sched s = (r, s')) :
    ∃ t, s'.log = s.log ++ t ∧ Whole (Ctx.of K H user a sched s) r s' t := by
  have h := steps_cases (X := Ctx.of K H user a sched s) (as := sched) .nil
    (Good.start K H user a sched s) (by
      intro x hx
      cases x with
      | message => trivial
      | event cut e =>
        refine ⟨.inr ⟨e, hx⟩, fun he => ?_⟩
        match e, he with
        | .stdout i none, _ => exact ⟨cut, i, .inl hx⟩
        | .stderr i none, _ => exact ⟨cut, i, .inr (.inl hx)⟩
        | .exit i none, _ => exact ⟨cut, i, .inr (.inr hx)⟩)
  rw [show Client.steps (Ctx.of K H user a sched s).K (Ctx.of K H user a sched s).H
    (Ctx.of K H user a sched s).user (Client.start a) sched s = (r, s') from hrun] at h
  cases h with
  | on h1 h2 => exact ⟨_, h2.link.log, .on rfl h1 h2⟩
  | ended h1 h2 h3 => exact ⟨_, h3, .ended h1 h2⟩

theorem session_whole (hrun : Client.steps K H user (Client.start a) sched s = (r, s'))
    {t : List Event} (hl : s'.log = s.log ++ t) : Whole (Ctx.of K H user a sched s) r s' t := by
  obtain ⟨t', h1, h2⟩ := session_log hrun
  rw [hl] at h1
  rw [List.append_cancel_left h1]
  exact h2

end

/-! ### the block of an event -/

theorem append_eq_mid {α : Type} {a b t1 t2 : List α} {e : α} (h : a ++ b = t1 ++ e :: t2) :
    (∃ x, a = t1 ++ e :: x ∧ t2 = x ++ b) ∨ (∃ x, t1 = a ++ x ∧ b = x ++ e :: t2) := by
  rcases List.append_eq_append_iff.mp h with ⟨x, h1, h2⟩ | ⟨x, h1, h2⟩
  · exact .inr ⟨x, h1, h2⟩
  · cases x with
    | nil => exact .inr ⟨[], by simpa using h1.symm, by simpa using h2.symm⟩
    | cons y x =>
      simp only [List.cons_append, List.cons.injEq] at h2
      obtain ⟨rfl, rfl⟩ := h2
      exact .inl ⟨x, h1, rfl⟩

theorem mid_eq_cons {α : Type} {b1 b2 l : List α} {e x : α} :
    b1 ++ e :: b2 = x :: l ↔ (b1 = [] ∧ e = x ∧ b2 = l) ∨ ∃ b, b1 = x :: b ∧ b ++ e :: b2 = l := by
  cases b1 with
  | nil => simp
  | cons y b1 => simp [and_assoc, eq_comm]

theorem mid_ne_nil {α : Type} {b1 b2 : List α} {e : α} : ¬ b1 ++ e :: b2 = [] := by simp

section
variable {H : ConnHandlers} {user : Nat} {A : Client.Cut → Prop} {l0 : List Event}

theorem Trace.split {t : List Event} (h : Spec.Trace H user A l0 t) :
    ∀ {t1 t2 e}, t = t1 ++ e :: t2 → ∃ t0 b1 b2 t3, t1 = t0 ++ b1 ∧ t2 = b2 ++ t3 ∧
      Spec.Trace H user A l0 t0 ∧ Spec.Block H user A l0 t0 (b1 ++ e :: b2) ∧
      Spec.Trace H user A l0 (t1 ++ e :: b2) := by
  induction h with
  | nil => intro t1 t2 e h; simp at h
  | snoc ht hb ih =>
    intro t1 t2 e h
    rcases append_eq_mid h with ⟨x, h1, h2⟩ | ⟨x, h1, h2⟩
    · obtain ⟨t0, b1, b2, t3, g1, g2, g3, g4, g5⟩ := ih h1
      exact ⟨t0, b1, b2, t3 ++ _, g1, by rw [h2, g2, List.append_assoc], g3, g4, g5⟩
    · refine ⟨_, x, t2, [], h1, by simp, ht, h2 ▸ hb, ?_⟩
      rw [h1, List.append_assoc, ← h2]
      exact ht.snoc hb

/-- Every event is part of a complete block, or of the last one. -/
theorem Whole.split {X : Ctx} {r : R Client.Stop (Client.St ⊕ Unit)} {s' : IoSt} {t1 t2 : List Event}
    {e : Event} (h : Whole X r s' (t1 ++ e :: t2)) : ∃ t0 b1, t1 = t0 ++ b1 ∧
    Spec.Trace X.H X.user X.A X.l0 t0 ∧
    ((∃ b2 t3, t2 = b2 ++ t3 ∧ Spec.Block X.H X.user X.A X.l0 t0 (b1 ++ e :: b2) ∧
      Spec.Trace X.H X.user X.A X.l0 (t1 ++ e :: b2)) ∨
     Spec.Ending X.H X.user X.A X.W (X.O t0) (X.L t0) X.F X.l0 t0 r (b1 ++ e :: t2)) := by
  generalize ht : t1 ++ e :: t2 = t at h
  cases h with
  | on _ h _ =>
    obtain ⟨t0, b1, b2, t3, h1, h2, h3, h4, h5⟩ := Trace.split h ht.symm
    exact ⟨t0, b1, h1, h3, .inl ⟨b2, t3, h2, h4, h5⟩⟩
  | ended h he =>
    rcases append_eq_mid ht.symm with ⟨x, h1, h2⟩ | ⟨x, h1, h2⟩
    · obtain ⟨t0, b1, b2, t3, g1, g2, g3, g4, g5⟩ := Trace.split h h1
      exact ⟨t0, b1, g1, g3, .inl ⟨b2, t3 ++ _, by rw [h2, g2, List.append_assoc], g4, g5⟩⟩
    · exact ⟨_, x, h1, h, .inr (h2 ▸ he)⟩

/-- What can be logged after `b`, where the block of `b` begins after `t`. -/
inductive Local (H : ConnHandlers) (user : Nat) (A : Client.Cut → Prop) (l0 t : List Event) :
    List Event → Event → Prop
  | received {p} : Local H user A l0 t [] (.received p)
  | confirm {p o id} : Spec.Legal (.channel (.open o)) p → Spec.LeastFree (Spec.view t) id →
    Local H user A l0 t [.received p] (.sent (Spec.encode (Spec.confirm id o)))
  | spawn {p r q ty peer} : Spec.Legal (.channel (.request r)) p →
    (Spec.view t).peers r.recipientChannel = some peer → Spec.Asks r q → Spec.runs q = some ty →
    Local H user A l0 t [.received p] (.proc (.spawn ty (Spec.view t).procs))
  | started {p r q ty peer io} : Spec.Legal (.channel (.request r)) p →
    (Spec.view t).peers r.recipientChannel = some peer → Spec.Asks r q → Spec.runs q = some ty →
    H.spawn (l0 ++ t ++ [.received p]) user ty = ok io →
    Local H user A l0 t [.received p, .proc (.spawn ty (Spec.view t).procs)]
      (.proc (.started (Spec.view t).procs io.stdin io.stdout io.stderr))
  | replaced {p r q ty peer n i o e} : Spec.Legal (.channel (.request r)) p →
    (Spec.view t).peers r.recipientChannel = some peer → Spec.Asks r q → Spec.runs q = some ty →
    (Spec.view t).stdins r.recipientChannel = some n →
    Local H user A l0 t [.received p, .proc (.spawn ty (Spec.view t).procs),
      .proc (.started (Spec.view t).procs i o e)] (.proc (.stdinClosed n))
  | success {p r q ty peer i o e} : Spec.Legal (.channel (.request r)) p → r.wantReply = true →
    (Spec.view t).peers r.recipientChannel = some peer → Spec.Asks r q → Spec.runs q = some ty →
    Local H user A l0 t ([.received p, .proc (.spawn ty (Spec.view t).procs),
      .proc (.started (Spec.view t).procs i o e)] ++
      Spec.closing ((Spec.view t).stdins r.recipientChannel)) (.sent (Spec.encode (Spec.success peer)))
  | failure {p r q peer} : Spec.Legal (.channel (.request r)) p → r.wantReply = true →
    (Spec.view t).peers r.recipientChannel = some peer → Spec.Asks r q → Spec.declined q = true →
    Local H user A l0 t [.received p] (.sent (Spec.encode (Spec.failure peer)))
  | stdin {p d n k} : Spec.Legal (.channel (.data d)) p →
    (Spec.view t).peers d.recipientChannel ≠ none →
    (Spec.view t).stdins d.recipientChannel = some n →
    H.write (l0 ++ t ++ [.received p]) n d.data = ok k →
    Local H user A l0 t [.received p] (.proc (.stdin n (d.data.take k)))
  | eof {p e n} : Spec.Legal (.channel (.eof e)) p →
    (Spec.view t).stdins e.recipientChannel = some n →
    Local H user A l0 t [.received p] (.proc (.stdinClosed n))
  | close {p c n} : Spec.Legal (.channel (.close c)) p →
    (Spec.view t).stdins c.recipientChannel = some n →
    Local H user A l0 t [.received p] (.proc (.stdinClosed n))
  | stdout {n peer d} : Spec.Reading t n → (Spec.view t).homes n = some peer → d.length ≤ 256 →
    Local H user A l0 t [] (.proc (.stdout n d))
  | stdoutData {n peer d} : Spec.Reading t n → (Spec.view t).homes n = some peer → d ≠ [] →
    d.length ≤ 256 →
    Local H user A l0 t [.proc (.stdout n d)] (.sent (Spec.encode (Spec.dataMsg peer d)))
  | stdoutEof {n peer} : Spec.Reading t n → (Spec.view t).homes n = some peer →
    Local H user A l0 t [.proc (.stdout n [])] (.sent (Spec.encode (Spec.eofMsg peer)))
  | stdoutClose {n peer} : Spec.Reading t n → (Spec.view t).homes n = some peer →
    Local H user A l0 t [.proc (.stdout n []), .sent (Spec.encode (Spec.eofMsg peer))]
      (.sent (Spec.encode (Spec.closeMsg peer)))
  | stderr {n peer d} : Spec.ReadingErr t n → (Spec.view t).homes n = some peer → d.length ≤ 256 →
    Local H user A l0 t [] (.proc (.stderr n d))
  | stderrData {n peer d} : Spec.ReadingErr t n → (Spec.view t).homes n = some peer → d ≠ [] →
    d.length ≤ 256 →
    Local H user A l0 t [.proc (.stderr n d)] (.sent (Spec.encode (Spec.dataMsg peer d)))
  | exited {n peer status} : Spec.Watched t n → (Spec.view t).homes n = some peer →
    Local H user A l0 t [] (.proc (.exited n status))
  | exitStatus {n peer status} : Spec.Watched t n → (Spec.view t).homes n = some peer →
    Local H user A l0 t [.proc (.exited n status)] (.sent (Spec.encode (Spec.exitMsg peer status)))

theorem Block.local {t b1 b2 : List Event} {e : Event}
    (h : Spec.Block H user A l0 t (b1 ++ e :: b2)) : Local H user A l0 t b1 e := by
  generalize hb : b1 ++ e :: b2 = b at h
  cases h with
  | packet hr =>
    rw [mid_eq_cons] at hb
    rcases hb with ⟨rfl, rfl, rfl⟩ | ⟨b, rfl, hb⟩
    · exact .received
    cases hr with
    | opened h1 h2 =>
      simp only [mid_eq_cons, mid_ne_nil, and_false, exists_false, or_false] at hb
      obtain ⟨rfl, rfl, rfl⟩ := hb
      exact .confirm h1 h2
    | run h1 h2 h3 h4 h5 =>
      rw [mid_eq_cons] at hb
      rcases hb with ⟨rfl, rfl, rfl⟩ | ⟨b, rfl, hb⟩
      · exact .spawn h1 h2 h3 h4
      rw [mid_eq_cons] at hb
      rcases hb with ⟨rfl, rfl, rfl⟩ | ⟨b, rfl, hb⟩
      · exact .started h1 h2 h3 h4 h5
      rcases append_eq_mid hb.symm with ⟨x, g1, g2⟩ | ⟨x, g1, g2⟩
      · cases hs : (Spec.view t).stdins _ with
        | none => rw [hs] at g1; simp [Spec.closing] at g1
        | some n =>
          rw [hs] at g1
          have := g1.symm
          simp only [Spec.closing, mid_eq_cons, mid_ne_nil, and_false, exists_false, or_false] at this
          obtain ⟨rfl, rfl, rfl⟩ := this
          exact .replaced h1 h2 h3 h4 hs
      · rename_i req _ _ _ _
        cases hw : req.wantReply with
        | false => rw [hw] at g2; simp [Spec.replyIf] at g2
        | true =>
          rw [hw] at g2
          have := g2.symm
          simp only [Spec.replyIf, if_true, mid_eq_cons, mid_ne_nil, and_false, exists_false,
            or_false] at this
          obtain ⟨rfl, rfl, rfl⟩ := this
          rw [List.append_nil] at g1
          subst g1
          exact .success h1 hw h2 h3 h4
    | decline h1 h2 h3 h4 =>
      rename_i req _ _
      cases hw : req.wantReply with
      | false => rw [hw] at hb; simp [Spec.replyIf] at hb
      | true =>
        rw [hw] at hb
        simp only [Spec.replyIf, if_true, mid_eq_cons, mid_ne_nil, and_false, exists_false,
          or_false] at hb
        obtain ⟨rfl, rfl, rfl⟩ := hb
        exact .failure h1 hw h2 h3 h4
    | data h1 h2 h3 h4 =>
      simp only [mid_eq_cons, mid_ne_nil, and_false, exists_false, or_false] at hb
      obtain ⟨rfl, rfl, rfl⟩ := hb
      exact .stdin h1 h2 h3 h4
    | eof h1 h2 =>
      cases hs : (Spec.view t).stdins _ with
      | none => rw [hs] at hb; simp [Spec.closing] at hb
      | some n =>
        rw [hs] at hb
        simp only [Spec.closing, mid_eq_cons, mid_ne_nil, and_false, exists_false, or_false] at hb
        obtain ⟨rfl, rfl, rfl⟩ := hb
        exact .eof h1 hs
    | close h1 =>
      cases hs : (Spec.view t).stdins _ with
      | none => rw [hs] at hb; simp [Spec.closing] at hb
      | some n =>
        rw [hs] at hb
        simp only [Spec.closing, mid_eq_cons, mid_ne_nil, and_false, exists_false, or_false] at hb
        obtain ⟨rfl, rfl, rfl⟩ := hb
        exact .close h1 hs
    | ignore h1 => simp at hb
  | lostSpawn h1 h2 h3 h4 h5 =>
    simp only [mid_eq_cons, mid_ne_nil, and_false, exists_false, or_false] at hb
    rcases hb with ⟨rfl, rfl, rfl⟩ | ⟨b, rfl, rfl, rfl, rfl⟩
    · exact .received
    · exact .spawn h2 h3 h4 h5
  | lostData =>
    simp only [mid_eq_cons, mid_ne_nil, and_false, exists_false, or_false] at hb
    obtain ⟨rfl, rfl, rfl⟩ := hb
    exact .received
  | stdout h1 h2 h3 h4 =>
    simp only [mid_eq_cons, mid_ne_nil, and_false, exists_false, or_false] at hb
    rcases hb with ⟨rfl, rfl, rfl⟩ | ⟨b, rfl, rfl, rfl, rfl⟩
    · exact .stdout h1 h2 h4
    · exact .stdoutData h1 h2 h3 h4
  | stdoutEnd h1 h2 =>
    simp only [mid_eq_cons, mid_ne_nil, and_false, exists_false, or_false] at hb
    rcases hb with ⟨rfl, rfl, rfl⟩ | ⟨b, rfl, ⟨rfl, rfl, rfl⟩ | ⟨b, rfl, rfl, rfl, rfl⟩⟩
    · exact .stdout h1 h2 (by simp)
    · exact .stdoutEof h1 h2
    · exact .stdoutClose h1 h2
  | stderr h1 h2 h3 h4 =>
    simp only [mid_eq_cons, mid_ne_nil, and_false, exists_false, or_false] at hb
    rcases hb with ⟨rfl, rfl, rfl⟩ | ⟨b, rfl, rfl, rfl, rfl⟩
    · exact .stderr h1 h2 h4
    · exact .stderrData h1 h2 h3 h4
  | stderrEnd h1 h2 =>
    simp only [mid_eq_cons, mid_ne_nil, and_false, exists_false, or_false] at hb
    obtain ⟨rfl, rfl, rfl⟩ := hb
    exact .stderr h1 h2 (by simp)
  | exit h1 h2 =>
    simp only [mid_eq_cons, mid_ne_nil, and_false, exists_false, or_false] at hb
    rcases hb with ⟨rfl, rfl, rfl⟩ | ⟨b, rfl, rfl, rfl, rfl⟩
    · exact .exited h1 h2
    · exact .exitStatus h1 h2

theorem Ending.local {W O L F : Prop} {r : R Client.Stop (Client.St ⊕ Unit)} {t b1 b2 : List Event}
    {e : Event} (h : Spec.Ending H user A W O L F l0 t r (b1 ++ e :: b2)) :
    Local H user A l0 t b1 e := by
  generalize hb : b1 ++ e :: b2 = b at h
  cases h with
  | disconnect =>
    simp only [mid_eq_cons, mid_ne_nil, and_false, exists_false, or_false] at hb
    obtain ⟨rfl, rfl, rfl⟩ := hb
    exact .received
  | lost => simp at hb
  | write hw hbl =>
    rename_i b q b'
    refine Block.local (b2 := b2 ++ b') ?_
    rw [show b1 ++ e :: (b2 ++ b') = (b1 ++ e :: b2) ++ b' by simp, hb]
    simpa using hbl
  | fatal =>
    simp only [mid_eq_cons, mid_ne_nil, and_false, exists_false, or_false] at hb
    obtain ⟨rfl, rfl, rfl⟩ := hb
    exact .received
  | spawnFails h2 h3 h4 h5 =>
    simp only [mid_eq_cons, mid_ne_nil, and_false, exists_false, or_false] at hb
    rcases hb with ⟨rfl, rfl, rfl⟩ | ⟨b, rfl, rfl, rfl, rfl⟩
    · exact .received
    · exact .spawn h2 h3 h4 h5
  | writeFails =>
    simp only [mid_eq_cons, mid_ne_nil, and_false, exists_false, or_false] at hb
    obtain ⟨rfl, rfl, rfl⟩ := hb
    exact .received
  | readFails => simp at hb
  | overflow => simp at hb
  | sendOverflow ho hbl =>
    rename_i q b'
    refine Block.local (b2 := b2 ++ .sent q :: b') ?_
    rw [show b1 ++ e :: (b2 ++ .sent q :: b') = (b1 ++ e :: b2) ++ .sent q :: b' by simp, hb]
    exact hbl

theorem Whole.local {X : Ctx} {r : R Client.Stop (Client.St ⊕ Unit)} {s' : IoSt} {t1 t2 : List Event}
    {e : Event} (h : Whole X r s' (t1 ++ e :: t2)) : ∃ t0 b, t1 = t0 ++ b ∧
    Spec.Trace X.H X.user X.A X.l0 t0 ∧ Local X.H X.user X.A X.l0 t0 b e := by
  obtain ⟨t0, b1, h1, h2, ⟨b2, t3, _, h3, _⟩ | h3⟩ := h.split
  · exact ⟨t0, b1, h1, h2, Block.local h3⟩
  · exact ⟨t0, b1, h1, h2, Ending.local h3⟩

/-- what is sent can be read in one way only -/
theorem encode_inj {m m' : Message} (h : Spec.isReply m = false) (h' : Spec.isReply m' = false)
    (hw : Spec.WF m') (hl : Spec.Legal m (Spec.encode m')) : m = m' := by
  have := hl.msgOf h
  rw [msgOf_encode h' hw] at this
  exact (Option.some.inj this).symm

theorem Spec.Legal.unique {m m' : Message} {p : Bytes} (h : Spec.isReply m = false)
    (h' : Spec.isReply m' = false) (hl : Spec.Legal m p) (hl' : Spec.Legal m' p) : m = m' := by
  have := hl.msgOf h
  rw [hl'.msgOf h'] at this
  exact (Option.some.inj this).symm

/-- `Spec.Reaction` to a message -/
inductive React (H : ConnHandlers) (user : Nat) (l0 t : List Event) (p : Bytes) :
    Message → List Event → Prop
  | opened {o id} : Spec.LeastFree (Spec.view t) id →
    React H user l0 t p (.channel (.open o)) [.sent (Spec.encode (Spec.confirm id o))]
  | run {r q ty peer io} : (Spec.view t).peers r.recipientChannel = some peer → Spec.Asks r q →
    Spec.runs q = some ty → H.spawn (l0 ++ t ++ [.received p]) user ty = ok io →
    React H user l0 t p (.channel (.request r)) (.proc (.spawn ty (Spec.view t).procs) ::
      .proc (.started (Spec.view t).procs io.stdin io.stdout io.stderr) ::
      (Spec.closing ((Spec.view t).stdins r.recipientChannel) ++
        Spec.replyIf r.wantReply (Spec.success peer)))
  | decline {r q peer} : (Spec.view t).peers r.recipientChannel = some peer → Spec.Asks r q →
    Spec.declined q = true → React H user l0 t p (.channel (.request r))
      (Spec.replyIf r.wantReply (Spec.failure peer))
  | data {d n k} : (Spec.view t).peers d.recipientChannel ≠ none →
    (Spec.view t).stdins d.recipientChannel = some n →
    H.write (l0 ++ t ++ [.received p]) n d.data = ok k →
    React H user l0 t p (.channel (.data d)) [.proc (.stdin n (d.data.take k))]
  | eof {e} : (Spec.view t).peers e.recipientChannel ≠ none →
    React H user l0 t p (.channel (.eof e)) (Spec.closing ((Spec.view t).stdins e.recipientChannel))
  | close {c} :
    React H user l0 t p (.channel (.close c)) (Spec.closing ((Spec.view t).stdins c.recipientChannel))
  | ignore {i} : React H user l0 t p (.ignore i) []

theorem Reaction.to {t : List Event} {p : Bytes} {m : Message} {b : List Event}
    (h : Spec.Reaction H user l0 t p b) (hm : Spec.isReply m = false) (hp : Spec.Legal m p) :
    React H user l0 t p m b := by
  cases h with
  | opened h1 h2 => rw [hp.unique hm rfl h1]; exact .opened h2
  | run h1 h2 h3 h4 h5 => rw [hp.unique hm rfl h1]; exact .run h2 h3 h4 h5
  | decline h1 h2 h3 h4 => rw [hp.unique hm rfl h1]; exact .decline h2 h3 h4
  | data h1 h2 h3 h4 => rw [hp.unique hm rfl h1]; exact .data h2 h3 h4
  | eof h1 h2 => rw [hp.unique hm rfl h1]; exact .eof h2
  | close h1 => rw [hp.unique hm rfl h1]; exact .close
  | ignore h1 => rw [hp.unique hm rfl h1]; exact .ignore

/-- `Spec.FatalPacket` for a message -/
inductive FatalMsg (v : Spec.View) : Message → Prop
  | unsupported {m} : Spec.unsupported m = true → FatalMsg v m
  | full {o} : (∀ id, v.peers id ≠ none) → FatalMsg v (.channel (.open o))
  | request {r} : v.peers r.recipientChannel = none → FatalMsg v (.channel (.request r))
  | data {d} : v.peers d.recipientChannel = none → FatalMsg v (.channel (.data d))
  | eof {e} : v.peers e.recipientChannel = none → FatalMsg v (.channel (.eof e))
  | noStdin {d} : v.stdins d.recipientChannel = none → FatalMsg v (.channel (.data d))
  | badRequest {r} : (∀ q, ¬ Spec.Asks r q) → FatalMsg v (.channel (.request r))
  | otherRequest {r q} : Spec.Asks r q → Spec.runs q = none → Spec.declined q = false →
    FatalMsg v (.channel (.request r))

theorem FatalPacket.to {v : Spec.View} {p : Bytes} {m : Message} (h : Spec.FatalPacket v p)
    (hm : Spec.isReply m = false) (hp : Spec.Legal m p) : FatalMsg v m := by
  have hparse := (Message.parse_iff hm).mpr hp
  cases h with
  | unparsable h => exact absurd (reads_iff.mp hparse) (h m)
  | unsupported h1 h2 =>
    replace h1 := reads_iff.mpr h1
    rw [hparse] at h1
    cases h1
    exact .unsupported h2
  | full h1 h2 => rw [hp.unique hm rfl h1]; exact .full h2
  | request h1 h2 => rw [hp.unique hm rfl h1]; exact .request h2
  | data h1 h2 => rw [hp.unique hm rfl h1]; exact .data h2
  | eof h1 h2 => rw [hp.unique hm rfl h1]; exact .eof h2
  | noStdin h1 h2 => rw [hp.unique hm rfl h1]; exact .noStdin h2
  | badRequest h1 h2 => rw [hp.unique hm rfl h1]; exact .badRequest h2
  | otherRequest h1 h2 h3 h4 => rw [hp.unique hm rfl h1]; exact .otherRequest h2 h3 h4

/-- What follows a packet with the message `m`. -/
inductive Follows (X : Ctx) (r : R Client.Stop (Client.St ⊕ Unit)) (t1 : List Event) (q : Bytes) :
    Message → List Event → Prop
  | done {m b t3} : React X.H X.user X.l0 t1 q m b →
    Spec.Trace X.H X.user X.A X.l0 (t1 ++ .received q :: b) → Follows X r t1 q m (b ++ t3)
  | lostSpawn {req x ty peer t3} : X.A .spawn →
    (Spec.view t1).peers req.recipientChannel = some peer → Spec.Asks req x →
    Spec.runs x = some ty →
    Follows X r t1 q (.channel (.request req)) (.proc (.spawn ty (Spec.view t1).procs) :: t3)
  | lostData {d n t3} : X.A .stdin → (Spec.view t1).peers d.recipientChannel ≠ none →
    (Spec.view t1).stdins d.recipientChannel = some n → Follows X r t1 q (.channel (.data d)) t3
  | disconnect {d} : r = ok (.inr ()) → Follows X r t1 q (.disconnect d) []
  | write {m b p b'} : X.W → r = err .out → React X.H X.user X.l0 t1 q m (b ++ .sent p :: b') →
    Follows X r t1 q m (b ++ [.sent p])
  | fatal {m} : r = R.panic → FatalMsg (Spec.view t1) m → Follows X r t1 q m []
  | spawnFails {req x ty peer} : r = R.panic →
    (Spec.view t1).peers req.recipientChannel = some peer → Spec.Asks req x →
    Spec.runs x = some ty →
    (∀ io, X.H.spawn (X.l0 ++ t1 ++ [.received q]) X.user ty ≠ ok io) →
    Follows X r t1 q (.channel (.request req)) [.proc (.spawn ty (Spec.view t1).procs)]
  | writeFails {d n} : r = R.panic → (Spec.view t1).stdins d.recipientChannel = some n →
    (∀ k, X.H.write (X.l0 ++ t1 ++ [.received q]) n d.data ≠ ok k) →
    Follows X r t1 q (.channel (.data d)) []
  | overflow {m b p b'} : X.O t1 → r = R.panic →
    React X.H X.user X.l0 t1 q m (b ++ .sent p :: b') → Follows X r t1 q m b

theorem Block.packet_inv {t : List Event} {q : Bytes} {b : List Event}
    (h : Spec.Block H user A l0 t (.received q :: b)) :
    Spec.Reaction H user l0 t q b ∨
    (∃ r x ty peer, A .spawn ∧ Spec.Legal (.channel (.request r)) q ∧
      (Spec.view t).peers r.recipientChannel = some peer ∧ Spec.Asks r x ∧ Spec.runs x = some ty ∧
      b = [.proc (.spawn ty (Spec.view t).procs)]) ∨
    (∃ d n, A .stdin ∧ Spec.Legal (.channel (.data d)) q ∧
      (Spec.view t).peers d.recipientChannel ≠ none ∧
      (Spec.view t).stdins d.recipientChannel = some n ∧ b = []) := by
  generalize hb : Event.received q :: b = x at h
  cases h with
  | packet h =>
    obtain ⟨h1, rfl⟩ := List.cons.inj hb
    cases h1
    exact .inl h
  | lostSpawn h1 h2 h3 h4 h5 =>
    obtain ⟨h6, rfl⟩ := List.cons.inj hb
    cases h6
    exact .inr (.inl ⟨_, _, _, _, h1, h2, h3, h4, h5, rfl⟩)
  | lostData h1 h2 h3 h4 =>
    obtain ⟨h6, rfl⟩ := List.cons.inj hb
    cases h6
    exact .inr (.inr ⟨_, _, h1, h2, h3, h4, rfl⟩)
  | _ => simp at hb

theorem Block.sent_packet {t : List Event} {q p : Bytes} {b b' : List Event}
    (h : Spec.Block H user A l0 t (.received q :: b ++ .sent p :: b')) :
    Spec.Reaction H user l0 t q (b ++ .sent p :: b') := by
  rcases Block.packet_inv h with h | ⟨_, _, _, _, _, _, _, _, _, h⟩ | ⟨_, _, _, _, _, _, h⟩
  · exact h
  · have hm : Event.sent p ∈ b.append (Event.sent p :: b') := by simp
    rw [h] at hm
    simp at hm
  · simp at h

/-- A packet that is received starts a block, and what follows is the reaction to its message. -/
theorem Whole.react {X : Ctx} {r : R Client.Stop (Client.St ⊕ Unit)} {s' : IoSt}
    {t1 t2 : List Event} {q : Bytes} {m : Message} (h : Whole X r s' (t1 ++ .received q :: t2))
    (hm : Spec.isReply m = false) (hq : Spec.Legal m q) :
    Spec.Trace X.H X.user X.A X.l0 t1 ∧ Follows X r t1 q m t2 := by
  obtain ⟨t0, b1, h1, h2, h3⟩ := h.split
  have hb : b1 = [] := by
    have hloc : Local X.H X.user X.A X.l0 t0 b1 (.received q) := by
      rcases h3 with ⟨b2, t3, _, h3, _⟩ | h3
      · exact Block.local h3
      · exact Ending.local h3
    cases hloc
    rfl
  subst hb
  rw [List.append_nil] at h1
  subst h1
  refine ⟨h2, ?_⟩
  rcases h3 with ⟨b2, t3, rfl, h4, h5⟩ | h3
  · rcases Block.packet_inv h4 with h | ⟨_, _, _, _, g1, g2, g3, g4, g5, rfl⟩ |
      ⟨_, _, g1, g2, g3, g4, rfl⟩
    · exact .done (Reaction.to h hm hq) h5
    · rw [hq.unique hm rfl g2]
      exact .lostSpawn g1 g3 g4 g5
    · rw [hq.unique hm rfl g2]
      exact .lostData g1 g3 g4
  · generalize hb : [] ++ Event.received q :: t2 = b at h3
    rw [List.nil_append] at hb
    cases h3 with
    | disconnect hd =>
      cases hb
      rw [hq.unique hm rfl hd]
      exact .disconnect rfl
    | lost => cases hb
    | write hw hbl =>
      rename_i b p b'
      cases b with
      | nil => cases hb
      | cons x b =>
        rw [List.cons_append] at hb
        obtain ⟨rfl, rfl⟩ := List.cons.inj hb
        exact .write hw rfl (Reaction.to (Block.sent_packet hbl) hm hq)
    | fatal hf =>
      cases hb
      exact .fatal rfl (FatalPacket.to hf hm hq)
    | spawnFails g1 g2 g3 g4 g5 =>
      cases hb
      rw [hq.unique hm rfl g1]
      exact .spawnFails rfl g2 g3 g4 g5
    | writeFails g1 g2 g3 =>
      cases hb
      rw [hq.unique hm rfl g1]
      exact .writeFails rfl g2 g3
    | readFails => cases hb
    | overflow => cases hb
    | sendOverflow ho hbl =>
      subst hb
      exact .overflow ho rfl (Reaction.to (Block.sent_packet hbl) hm hq)

end

end Nora
