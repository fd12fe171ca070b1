import Verif.Lemmas.ConnExact
import Verif.Props.Refused
/-
C95: the specification of a session is exact. What uninterrupted sessions do is what the specification
allows, and everything the specification allows is done by some session.
-/
namespace Nora
open R

section
variable {K : Crypto} {H : ConnHandlers} {user : Nat} {a : Authenticated} {sched : List Client.Step}
  {s s' : IoSt} {t : List Event} {ps : List Bytes}

/-- C95: a packet has one effect: what is done after it is determined by the packet, the events before it
and the handlers. -/
theorem C95_deterministic {l0 : List Event} {q : Bytes} {b b' : List Event}
    (h : Spec.Reaction H user l0 t q b) (h' : Spec.Reaction H user l0 t q b') : b = b' :=
  Reaction.unique h h'

theorem Spec.Smooth.snoc {x : Client.Step} (h : Spec.Smooth sched)
    (hx : ∀ cut e, x = .event cut e → cut = .none) : Spec.Smooth (sched ++ [x]) := by
  intro cut e hm
  rcases List.mem_append.mp hm with hm | hm
  · exact h cut e hm
  · exact hx cut e (List.mem_singleton.mp hm).symm

theorem Spec.Fresh.before {b : List Event} (h : Spec.Fresh a (t ++ b)) : Spec.Fresh a t := by
  unfold Spec.Fresh at h ⊢
  rw [sentPayloads_append, payloads_append, List.length_append, List.length_append] at h
  omega

theorem Block.mono {A A' : Client.Cut → Prop} {l0 b : List Event} (hA : ∀ c, c ≠ .none → A c → A' c)
    (h : Spec.Block H user A l0 t b) : Spec.Block H user A' l0 t b := by
  cases h with
  | packet h => exact .packet h
  | lostSpawn h1 h2 h3 h4 h5 => exact .lostSpawn (hA _ (by simp) h1) h2 h3 h4 h5
  | lostData h1 h2 h3 h4 => exact .lostData (hA _ (by simp) h1) h2 h3 h4
  | stdout h1 h2 h3 h4 => exact .stdout h1 h2 h3 h4
  | stdoutEnd h1 h2 => exact .stdoutEnd h1 h2
  | stderr h1 h2 h3 h4 => exact .stderr h1 h2 h3 h4
  | stderrEnd h1 h2 => exact .stderrEnd h1 h2
  | exit h1 h2 => exact .exit h1 h2

theorem Trace.mono {A A' : Client.Cut → Prop} {l0 : List Event} (hA : ∀ c, c ≠ .none → A c → A' c)
    (h : Spec.Trace H user A l0 t) : Spec.Trace H user A' l0 t := by
  induction h with
  | nil => exact .nil
  | snoc _ hb ih => exact .snoc ih (Block.mono hA hb)

theorem Spec.Trace.smooth {l0 : List Event} (hsm : Spec.Smooth sched)
    (h : Spec.Trace H user (Spec.Drops sched) l0 t) : Spec.Trace H user (fun _ => False) l0 t :=
  Trace.mono (fun _ hc h => hsm.not_drops hc h) h

theorem Block.quiet {A : Client.Cut → Prop} {l0 b : List Event} (h : Spec.Block H user A l0 t b) :
    (∃ q u, b = .received q :: u) ∨ Spec.payloads b = [] := by
  cases h with
  | packet => exact .inl ⟨_, _, rfl⟩
  | lostSpawn => exact .inl ⟨_, _, rfl⟩
  | lostData => exact .inl ⟨_, _, rfl⟩
  | stdout => exact .inr rfl
  | stdoutEnd => exact .inr rfl
  | stderr => exact .inr rfl
  | stderrEnd => exact .inr rfl
  | exit => exact .inr rfl

/-- the next packet of those sent -/
theorem next_packet {q : Bytes} {u : List Event} (h : Spec.payloads (t ++ .received q :: u) <+: ps) :
    ps[(Spec.payloads t).length]? = some q := by
  obtain ⟨z, rfl⟩ := h
  rw [payloads_append, show Spec.payloads (.received q :: u) = q :: Spec.payloads u from rfl,
    List.append_assoc, List.getElem?_append_right (Nat.le_refl _), Nat.sub_self]
  rfl

theorem payloads_left {b : List Event} (h : Spec.payloads (t ++ b) <+: ps) :
    Spec.payloads t <+: ps := by
  rw [payloads_append] at h
  exact (List.prefix_append _ _).trans h

/-- whatever the specification allows can happen -/
theorem trace_session {rest : Bytes} (hw : s.wcap = none)
    (hs : Spec.Arrive K (Spec.keysOf a.receive) a.receive.counter.toNat ps s.inp rest)
    (ht : Spec.Trace H user (fun _ => False) s.log t) :
    Spec.Fresh a t → Spec.payloads t <+: ps → ∃ sched st s', Spec.Smooth sched ∧
      Client.steps K H user (Client.start a) sched s = (ok (.inl st), s') ∧ s'.log = s.log ++ t := by
  induction ht with
  | nil => exact fun _ _ => ⟨[], Client.start a, s, by (intro _ _ h; cases h), rfl, (List.append_nil _).symm⟩
  | snoc ht hb ih =>
    intro hc hp
    obtain ⟨sched, st, s', h1, h2, h3⟩ := ih hc.before (payloads_left hp)
    rcases Block.quiet hb with ⟨q, u, rfl⟩ | hq
    · rcases Block.packet_inv hb with h | ⟨_, _, _, _, g, _⟩ | ⟨_, _, g, _⟩
      · obtain ⟨st2, s2, g1, g2⟩ := exec_reaction h2 h3 h1 hw hc.before hs (next_packet hp) h
        exact ⟨_, st2, s2, h1.snoc (by intro _ _ h; cases h), g1, g2⟩
      · exact g.elim
      · exact g.elim
    · obtain ⟨e, st2, s2, g1, g2⟩ := exec_output h2 h3 (fun n => h1.not_drops (by simp)) hw hc.before hb hq
      exact ⟨_, st2, s2, h1.snoc (fun _ _ h => by cases h; rfl), g1, g2⟩

/-- C95: the sessions that are never interrupted. A client has sent the packets `ps`, and writes succeed. Then
the events `t` are those of a session that goes on, if and only if the specification allows them and the
packets among them are the first of `ps` (as long as no packet counter is exhausted). -/
theorem C95_sessions {rest : Bytes} (hw : s.wcap = none)
    (hs : Spec.Arrive K (Spec.keysOf a.receive) a.receive.counter.toNat ps s.inp rest)
    (hc : Spec.Fresh a t) (hn : (Spec.payloads t).length ≤ ps.length) :
    (∃ sched st s', Spec.Smooth sched ∧
      Client.steps K H user (Client.start a) sched s = (ok (.inl st), s') ∧ s'.log = s.log ++ t) ↔
    Spec.Trace H user (fun _ => False) s.log t ∧ Spec.payloads t <+: ps := by
  constructor
  · rintro ⟨sched, st, s', h1, h2, h3⟩
    obtain ⟨ht, _⟩ := good_of h2 h3
    refine ⟨ht.smooth h1, ?_⟩
    rcases C47_received_partial h2 (fun n => h1.not_drops (by simp)) hs h3 with h | ⟨h, -⟩
    · exact h
    · rw [h.eq_of_length (Nat.le_antisymm h.length_le hn)]
      exact List.prefix_rfl
  · rintro ⟨h1, h2⟩
    exact trace_session hw hs h1 hc h2

/-! ### the end of a session -/

/-- a session ends with one of its steps -/
theorem steps_split {st0 : Client.St} {r : R Client.Stop (Client.St ⊕ Unit)}
    (hrun : Client.steps K H user st0 sched s = (r, s')) (hr : ∀ st, r ≠ ok (.inl st)) :
    ∃ as x bs st s1, sched = as ++ x :: bs ∧
      Client.steps K H user st0 as s = (ok (.inl st), s1) ∧
      Client.step K H user st x s1 = (r, s') := by
  induction sched generalizing st0 s with
  | nil => cases hrun; exact absurd rfl (hr _)
  | cons x sched ih =>
    rw [Client.steps, M.bind_run] at hrun
    rcases hx : Client.step K H user st0 x s with ⟨r1, s1⟩
    rw [hx] at hrun
    cases r1 with
    | ok y =>
      cases y with
      | inl st1 =>
        obtain ⟨as, x', bs, st, s2, g1, g2, g3⟩ := ih hrun
        refine ⟨x :: as, x', bs, st, s2, by rw [g1]; rfl, ?_, g3⟩
        rw [Client.steps, M.bind_run, hx]
        exact g2
      | inr _ => cases hrun; exact ⟨[], x, sched, st0, s, rfl, rfl, hx⟩
    | err e => cases hrun; exact ⟨[], x, sched, st0, s, rfl, rfl, hx⟩
    | panic => cases hrun; exact ⟨[], x, sched, st0, s, rfl, rfl, hx⟩

/-- does not fail to receive a packet -/
def NoRecv {α : Type} (x : M Client.Stop α) : Prop := ∀ s e s', x s ≠ (err (.recv e), s')

theorem NoRecv.bind {α β : Type} {x : M Client.Stop α} {f : α → M Client.Stop β} (hx : NoRecv x)
    (hf : ∀ a, NoRecv (f a)) : NoRecv (x >>= f) := by
  intro s e s' h
  rw [M.bind_run] at h
  rcases hx' : x s with ⟨r, s1⟩
  rw [hx'] at h
  cases r with
  | ok a => exact hf a _ _ _ h
  | err e' => cases h; exact hx _ _ _ hx'
  | panic => cases h

theorem NoRecv.pure {α : Type} (v : α) : NoRecv (Pure.pure v) := by
  intro s e s' h; cases h

theorem NoRecv.log (e : Event) : NoRecv (M.logEvent e) := by
  intro s e s' h; cases h

theorem NoRecv.send (st : Client.St) (m : Message) : NoRecv (Client.send K .none st m) := by
  refine NoRecv.bind ?_ fun _ => .pure _
  intro s e s' h
  rw [M.mapErr_run] at h
  generalize Out.send K st.send st.buf (Message.write m) s = y at h
  obtain ⟨r, s1⟩ := y
  cases r <;> cases h

theorem NoRecv.event (st : Client.St) (e : Client.Ev) : NoRecv (Client.event K st e) := by
  have pan : ∀ {α : Type}, NoRecv (M.panic : M Client.Stop α) := by
    intro α s e s' h; cases h
  cases e with
  | stdout i r =>
    rw [Client.event]
    split
    · exact .pure _
    · split
      · exact pan
      · refine .bind (.log _) fun _ => ?_
        split
        · exact .send _ _
        · exact .bind (.send _ _) fun _ => .send _ _
  | stderr i r =>
    rw [Client.event]
    split
    · exact .pure _
    · split
      · exact pan
      · refine .bind (.log _) fun _ => ?_
        split
        · exact .send _ _
        · exact .pure _
  | exit i status =>
    rw [Client.event]
    split
    · exact .pure _
    · split
      · exact pan
      · rw [exitStatus_eq]
        exact .bind (.log _) fun _ => .bind (by intro s e s' h; cases h) fun _ => .send _ _

/-- what is refused is not a packet -/
theorem Spec.Refused.not_arrive {k : Spec.Keys} {n : Nat} {w rest rest' p : Bytes} {e : InError}
    (h : Spec.Refused K k n 35000 w e rest) (hn : n + 1 < 2 ^ 64) :
    ¬ Spec.Arrive K k n [p] w rest' := by
  rintro ⟨raw, w', h1, h2, h3, -⟩
  exact (C98_or_packet K k n 35000 w (by omega) hn).mpr ⟨p, raw, w', h1, h2, h3⟩ ⟨e, rest, h⟩

/-- all packets are received -/
theorem input_left {st : Client.St} {rest : Bytes}
    (hrun : Client.steps K H user (Client.start a) sched s = (ok (.inl st), s'))
    (hl : s'.log = s.log ++ t) (hsm : Spec.Smooth sched)
    (hs : Spec.Arrive K (Spec.keysOf a.receive) a.receive.counter.toNat ps s.inp rest)
    (hp : Spec.payloads t = ps) : s'.inp = rest := by
  obtain ⟨_, hg⟩ := good_of hrun hl
  have := (hg.link.inp (fun n => hsm.not_drops (by simp)) ps rest hs (by rw [hp]; exact Nat.le_refl _)).2
  rw [hp, List.drop_length] at this
  exact this

theorem message_refused {st : Client.St} {rest rest' : Bytes} {e : InError}
    (hrun : Client.steps K H user (Client.start a) sched s = (ok (.inl st), s'))
    (hl : s'.log = s.log ++ t) (hsm : Spec.Smooth sched)
    (hs : Spec.Arrive K (Spec.keysOf a.receive) a.receive.counter.toNat ps s.inp rest)
    (hr : Spec.Refused K (Spec.keysOf a.receive) (a.receive.counter.toNat + ps.length) 35000 rest e rest')
    (hc : Spec.Fresh a t) (hp : Spec.payloads t = ps) :
    Client.step K H user st .message s' = (err (.recv e), { s' with inp := rest' }) := by
  obtain ⟨_, hg⟩ := good_of hrun hl
  have hctr : st.receive.counter.toNat = a.receive.counter.toNat + (Spec.payloads t).length :=
    hg.link.receiveCounter
  have hkeys : Spec.keysOf st.receive = Spec.keysOf a.receive := hg.link.receiveKeys
  rw [← input_left hrun hl hsm hs hp, ← hp, ← hctr, ← hkeys, ← hg.link.buf] at hr
  obtain ⟨c', buf', h⟩ := (C98_refused K st.receive st.buf s' e rest' (by rw [hg.link.buf]; omega)
    (by rw [hctr]; exact hc.2)).mpr hr
  exact M.bind_err (by rw [M.mapErr_run, h]; rfl)

/-- nothing but the packets is received -/
theorem received_only {r : R Client.Stop (Client.St ⊕ Unit)} {rest rest' : Bytes} {e : InError}
    (hrun : Client.steps K H user (Client.start a) sched s = (r, s'))
    (hl : s'.log = s.log ++ t) (hsm : Spec.Smooth sched)
    (hs : Spec.Arrive K (Spec.keysOf a.receive) a.receive.counter.toNat ps s.inp rest)
    (hr : Spec.Refused K (Spec.keysOf a.receive) (a.receive.counter.toNat + ps.length) 35000 rest e rest')
    (hc : Spec.Fresh a t) : Spec.payloads t <+: ps := by
  rcases C47_received_partial hrun (fun n => hsm.not_drops (by simp)) hs hl with h | ⟨h, p, _, h'⟩
  · exact h
  · have h1 := h.length_le
    have h2 := hc.2
    exact absurd h' (hr.not_arrive (by omega))

/-- with which error a session ends when there are no more packets -/
theorem recv_error {e e' : InError} {rest rest' : Bytes}
    (hrun : Client.steps K H user (Client.start a) sched s = (err (.recv e), s'))
    (hsm : Spec.Smooth sched) (hw : s.wcap = none)
    (hs : Spec.Arrive K (Spec.keysOf a.receive) a.receive.counter.toNat ps s.inp rest)
    (hr : Spec.Refused K (Spec.keysOf a.receive) (a.receive.counter.toNat + ps.length) 35000 rest e' rest')
    (hl : s'.log = s.log ++ t) (hc : Spec.Fresh a t) : e = e' := by
  obtain ⟨as, x, bs, st, s1, g1, g2, g3⟩ := steps_split hrun (by simp)
  have hsm1 : Spec.Smooth as := fun cut e h => hsm cut e (by rw [g1]; simp [h])
  obtain ⟨t1, hl1, -⟩ := session_log g2
  cases x with
  | event cut ev =>
    cases hsm cut ev (by rw [g1]; simp)
    exact absurd g3 (NoRecv.bind (NoRecv.event st ev) (fun _ => .pure _) _ _ _)
  | message =>
    have hlog : ∃ u, t = t1 ++ u := by
      have hm := message_cases (good_of g2 hl1).2 (cut := .none) (.inl rfl)
      have g3' : Client.message K H user .none st s1 = _ := g3
      have hm : Stepped (Ctx.of K H user a as s) t1 .none (Client.message K H user .none st s1) := hm
      rw [g3'] at hm
      cases hm with
      | ended he hlog =>
        have : s.log ++ t = s.log ++ (t1 ++ _) := hl.symm.trans hlog
        exact ⟨_, List.append_cancel_left this⟩
    obtain ⟨u, rfl⟩ := hlog
    have h := received_only g2 hl1 hsm1 hs hr hc.before
    · rcases Nat.lt_or_ge (Spec.payloads t1).length ps.length with hlt | hge
      · obtain ⟨q, hq⟩ : ∃ q, ps[(Spec.payloads t1).length]? = some q :=
          ⟨_, List.getElem?_eq_getElem hlt⟩
        rcases exec_outcome g2 hl1 hsm1 hw hc.before hs hq with ⟨_, _, _, k, _⟩ | ⟨_, _, _, k, _, hf⟩
        · rw [steps_snoc g2, g3] at k
          cases k
        · rw [steps_snoc g2, g3] at k
          cases k
          cases hf
      · rw [message_refused g2 hl1 hsm1 hs hr hc.before (h.eq_of_length_le hge)] at g3
        cases g3
        rfl

/-- the output of a process cannot be read, or it cannot be waited for -/
theorem exec_readFails {st : Client.St} {n : Nat}
    (hrun : Client.steps K H user (Client.start a) sched s = (ok (.inl st), s'))
    (hl : s'.log = s.log ++ t) (hsm : Spec.Smooth sched)
    (h : Spec.Reading t n ∨ Spec.ReadingErr t n ∨ Spec.Watched t n) :
    ∃ e, Client.steps K H user (Client.start a) (sched ++ [.event .none e]) s = (R.panic, s') := by
  have hr := C44_reading_partial hrun (fun n => hsm.not_drops (by simp)) hl n
  rcases h with h | h | h
  · obtain ⟨i, peer, g1, _⟩ := hr.1 h
    refine ⟨.stdout i none, ?_⟩
    rw [steps_snoc hrun, Client.step, Client.event, g1]
    rfl
  · obtain ⟨i, peer, g1, _⟩ := hr.2.1 h
    refine ⟨.stderr i none, ?_⟩
    rw [steps_snoc hrun, Client.step, Client.event, g1]
    rfl
  · obtain ⟨i, peer, g1, _⟩ := hr.2.2 h
    refine ⟨.exit i none, ?_⟩
    rw [steps_snoc hrun, Client.step, Client.event, g1]
    rfl

/-- C95: the ways in which a session that is never interrupted ends. A client has sent the packets `ps` and
then something that is refused with the error `e` (`.read` if there is nothing more), and writes succeed. Then a session can end with the result `r` and the events `t`, if and only
if the specification allows this: with a DISCONNECT, with a message that is not accepted, with a handler that
fails, when the output of a process cannot be read or it cannot be waited for, or when there are no more
packets. -/
theorem C95_endings {r : R Client.Stop (Client.St ⊕ Unit)} {e : InError} {rest rest' : Bytes}
    (hw : s.wcap = none)
    (hs : Spec.Arrive K (Spec.keysOf a.receive) a.receive.counter.toNat ps s.inp rest)
    (hrest : Spec.Refused K (Spec.keysOf a.receive) (a.receive.counter.toNat + ps.length) 35000 rest e rest')
    (hc : Spec.Fresh a t) (hr : ∀ st, r ≠ ok (.inl st)) :
    (∃ sched s', Spec.Smooth sched ∧
      Client.steps K H user (Client.start a) sched s = (r, s') ∧ s'.log = s.log ++ t) ↔
    ∃ t0 b, t = t0 ++ b ∧ Spec.Trace H user (fun _ => False) s.log t0 ∧ Spec.payloads t <+: ps ∧
      Spec.Ending H user (fun _ => False) False False
        (Spec.payloads t0 = ps ∧ r = err (.recv e)) True s.log t0 r b := by
  constructor
  · rintro ⟨sched, s', h1, h2, h3⟩
    have hp : Spec.payloads t <+: ps := received_only h2 h3 h1 hs hrest hc
    cases session_whole h2 h3 with
    | on h => exact absurd h (hr _)
    | ended ht he =>
      rename_i t0 b
      refine ⟨t0, b, rfl, ht.smooth h1, hp, ?_⟩
      have hO := hc.before.not (K := K) (H := H) (user := user) (sched := sched) (s := s)
      cases he with
      | disconnect h => exact .disconnect h
      | lost h =>
        refine .lost ⟨?_, ?_⟩
        · have := h (fun n => h1.not_drops (by simp)) ps rest hs hc.before.2
          exact (payloads_left hp).eq_of_length_le this
        · rw [recv_error h2 h1 hw hs hrest h3 hc]
      | write h _ => exact absurd hw h
      | fatal h => exact .fatal h
      | spawnFails g1 g2 g3 g4 g5 => exact .spawnFails g1 g2 g3 g4 g5
      | writeFails g1 g2 g3 => exact .writeFails g1 g2 g3
      | readFails _ g1 g2 => exact .readFails trivial g1 g2
      | overflow h => exact absurd h hO
      | sendOverflow h _ => exact absurd h hO
  · rintro ⟨t0, b, rfl, ht, hp, he⟩
    obtain ⟨sched, st, s', h1, h2, h3⟩ := trace_session hw hs ht hc.before (payloads_left hp)
    have fin : ∀ {q u}, Spec.payloads (t0 ++ .received q :: u) <+: ps →
        Spec.FinalPacket H user s.log t0 q r u → ∃ sched s', Spec.Smooth sched ∧
          Client.steps K H user (Client.start a) sched s = (r, s') ∧
          s'.log = s.log ++ (t0 ++ .received q :: u) := by
      intro q u hp hf
      obtain ⟨s2, g1, g2⟩ := exec_fatal h2 h3 h1 hw hc.before hs (next_packet hp) hf
      exact ⟨_, s2, h1.snoc (by intro _ _ h; cases h), g1, g2⟩
    cases he with
    | disconnect h => exact fin hp (.disconnect h)
    | lost h =>
      obtain ⟨h, he⟩ := h
      cases he
      refine ⟨sched ++ [.message], { s' with inp := rest' }, h1.snoc (by intro _ _ h; cases h), ?_, ?_⟩
      · exact (steps_snoc h2).trans (message_refused h2 h3 h1 hs hrest hc.before h)
      · rw [List.append_nil]; exact h3
    | write h _ => exact h.elim
    | fatal h => exact fin hp (.fatal h)
    | spawnFails h1 h2 h3 h4 h5 => exact fin hp (.spawnFails h1 h2 h3 h4 h5)
    | writeFails h1 h2 h3 => exact fin hp (.writeFails h1 h2 h3)
    | readFails _ g1 g2 =>
      obtain ⟨e, he⟩ := exec_readFails h2 h3 h1 g2
      exact ⟨_, _, h1.snoc (by intro _ _ h; cases h; rfl), he, by rw [List.append_nil]; exact h3⟩
    | overflow h => exact h.elim
    | sendOverflow h _ => exact h.elim

theorem Spec.Arrive.length_le {K : Crypto} {k : Spec.Keys} : ∀ {ps : List Bytes} {n : Nat} {w rest : Bytes},
    Spec.Arrive K k n ps w rest → ps.length ≤ w.length := by
  intro ps
  induction ps with
  | nil => intro n w rest _; exact Nat.zero_le _
  | cons p ps ih =>
    rintro n w rest ⟨raw, w', _, _, h3, h4⟩
    have := congrArg List.length h3
    simp [Spec.sealed] at this
    have := ih h4
    simp only [List.length_cons]
    omega

/-- C95: whatever the client sends is such a stream: a sequence of packets, and then something that is
refused -/
theorem C95_streams (K : Crypto) (k : Spec.Keys) (n : Nat) (w : Bytes) (hn : n + w.length + 1 < 2 ^ 64) :
    ∃ ps rest e rest', Spec.Arrive K k n ps w rest ∧
      Spec.Refused K k (n + ps.length) 35000 rest e rest' := by
  obtain ⟨ps, rest, h1, h2⟩ := Spec.Arrive.all K k w.length n w (Nat.le_refl _)
  have hl := h1.length_le
  by_cases h : ∃ e rest', Spec.Refused K k (n + ps.length) 35000 rest e rest'
  · obtain ⟨e, rest', h⟩ := h
    exact ⟨ps, rest, e, rest', h1, h⟩
  · obtain ⟨p, raw, r, g1, g2, g3⟩ := (C98_or_packet K k _ 35000 rest (by omega) (by omega)).mp h
    exact absurd ⟨raw, r, g1, g2, g3, rfl⟩ (h2 p r)

end

end Nora
