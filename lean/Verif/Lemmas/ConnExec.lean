import Verif.Props.ConnStop
/-
Sessions in which nothing goes wrong: every step is carried out.
-/
namespace Nora
open R

/-- `receive` is never dropped -/
def Spec.Smooth (sched : List Client.Step) : Prop := ∀ cut e, .event cut e ∈ sched → cut = .none

section
variable {K : Crypto} {H : ConnHandlers} {user : Nat} {a : Authenticated} {sched : List Client.Step}
  {s s' : IoSt} {st : Client.St} {t : List Event}

theorem steps_append {st0 : Client.St} {as bs : List Client.Step} {s s' : IoSt} {st : Client.St}
    (h : Client.steps K H user st0 as s = (ok (.inl st), s')) :
    Client.steps K H user st0 (as ++ bs) s = Client.steps K H user st bs s' := by
  induction as generalizing st0 s with
  | nil => cases h; rfl
  | cons x as ih =>
    rw [Client.steps, M.bind_run] at h
    rw [List.cons_append, Client.steps, M.bind_run]
    rcases hx : Client.step K H user st0 x s with ⟨r, s1⟩
    rw [hx] at h
    cases r with
    | ok y =>
      cases y with
      | inl st1 => exact ih h
      | inr _ => cases h
    | err e => cases h
    | panic => cases h

theorem steps_one (st : Client.St) (x : Client.Step) (s : IoSt) :
    Client.steps K H user st [x] s = Client.step K H user st x s := by
  rw [Client.steps, M.bind_run]
  rcases Client.step K H user st x s with ⟨r, s1⟩
  cases r with
  | ok y => cases y <;> rfl
  | err e => rfl
  | panic => rfl

theorem steps_snoc {st0 : Client.St} {as : List Client.Step} {x : Client.Step} {s s' : IoSt}
    {st : Client.St} (h : Client.steps K H user st0 as s = (ok (.inl st), s')) :
    Client.steps K H user st0 (as ++ [x]) s = Client.step K H user st x s' := by
  rw [steps_append h, steps_one]

theorem Spec.Smooth.not_drops (h : Spec.Smooth sched) {cut : Client.Cut} (hc : cut ≠ .none) :
    ¬ Spec.Drops sched cut := fun ⟨e, he⟩ => hc (h _ e he)

theorem good_of (hrun : Client.steps K H user (Client.start a) sched s = (ok (.inl st), s'))
    (hl : s'.log = s.log ++ t) : Spec.Trace H user (Spec.Drops sched) s.log t ∧
      Good (Ctx.of K H user a sched s) t st s' := by
  cases session_whole hrun hl with
  | on h1 h2 h3 => cases h1; exact ⟨h2, h3⟩
  | ended h1 h2 => nomatch h2

/-- nothing is exhausted after the events `t` -/
def Spec.Fresh (a : Authenticated) (t : List Event) : Prop :=
  a.send.counter.toNat + (Spec.sentPayloads t).length + 2 < 2 ^ 64 ∧
  a.receive.counter.toNat + (Spec.payloads t).length + 1 < 2 ^ 64

theorem Spec.Fresh.not (h : Spec.Fresh a t) : ¬ (Ctx.of K H user a sched s).O t := by
  rintro (h' | h')
  · have := h.1
    have : 2 ^ 64 ≤ a.send.counter.toNat + (Spec.sentPayloads t).length + 2 := h'
    omega
  · have := h.2
    have : 2 ^ 64 ≤ a.receive.counter.toNat + (Spec.payloads t).length + 1 := h'
    omega

/-- the next packet is received -/
theorem exec_recv (hrun : Client.steps K H user (Client.start a) sched s = (ok (.inl st), s'))
    (hl : s'.log = s.log ++ t) (hsm : Spec.Smooth sched) (hc : Spec.Fresh a t) {ps : List Bytes}
    {rest q : Bytes}
    (hs : Spec.Arrive K (Spec.keysOf a.receive) a.receive.counter.toNat ps s.inp rest)
    (hq : ps[(Spec.payloads t).length]? = some q) :
    ∃ c' buf' s1,
      Link (Ctx.of K H user a sched s) (t ++ [.received q]) st.send c' buf' s1 ∧
      ∀ cut, (∀ n, cut ≠ .read n) → Client.message K H user cut st s' = (do
        let m ← M.lift (Message.parse q).unwrap
        Client.handle K H user cut { st with receive := c', buf := buf' } m) s1 := by
  obtain ⟨ht, hg⟩ := good_of hrun hl
  have hlt : (Spec.payloads t).length < ps.length := (List.getElem?_eq_some_iff.mp hq).1
  have hcut : ∀ n, ¬ (Ctx.of K H user a sched s).A (.read n) := fun n => hsm.not_drops (by simp)
  rcases hg.link.recv with ⟨hL, e, s1, h1, h2⟩ | ⟨ho, s1, h1, h2⟩ | ⟨p, c', buf', s1, h1, h2⟩
  · have := hL hcut ps rest hs hc.2
    omega
  · have h3 := hc.2
    have : 2 ^ 64 ≤ a.receive.counter.toNat + (Spec.payloads t).length + 1 := ho
    omega
  · have hr : Spec.payloads (t ++ [.received p]) = Spec.payloads t ++ [p] := by
      rw [payloads_append]; rfl
    have hpre := (h2.inp hcut ps rest hs (by rw [hr, List.length_append, List.length_singleton]; omega)).1
    rw [hr] at hpre
    obtain ⟨z, hz⟩ := hpre
    rw [← hz, List.append_assoc, List.getElem?_append_right (Nat.le_refl _), Nat.sub_self] at hq
    cases hq
    refine ⟨c', buf', s1, h2, fun cut hcut' => ?_⟩
    have h1' : In.recv K st.receive st.buf s' = _ := h1
    have : Client.message K H user cut st = (do
        let (payload, receive, buf) ← (In.recv K st.receive st.buf).mapErr (fun e => .recv e.1)
        let m ← M.lift (Message.parse payload).unwrap
        Client.handle K H user cut { st with receive, buf } m) := by
      cases cut with
      | read n => exact absurd rfl (hcut' n)
      | _ => rfl
    rw [this, M.bind_ok (by rw [M.mapErr_run, h1']; rfl)]

/-- and logged -/
theorem exec_logged (hrun : Client.steps K H user (Client.start a) sched s = (ok (.inl st), s'))
    (hl : s'.log = s.log ++ t) (hsm : Spec.Smooth sched) (hc : Spec.Fresh a t) {ps : List Bytes}
    {rest q : Bytes}
    (hs : Spec.Arrive K (Spec.keysOf a.receive) a.receive.counter.toNat ps s.inp rest)
    (hq : ps[(Spec.payloads t).length]? = some q) :
    ∃ u, (Client.steps K H user (Client.start a) (sched ++ [.message]) s).2.log =
      s.log ++ (t ++ .received q :: u) := by
  obtain ⟨c', buf', s1, h2, h3⟩ := exec_recv hrun hl hsm hc hs hq
  have h3 := h3 .none (by simp)
  rw [steps_snoc hrun]
  show ∃ u, (Client.message K H user .none st s').2.log = _
  obtain ⟨u, hu, _⟩ := Quiet.bind (Quiet.lift (Message.parse q).unwrap)
    (fun m => Quiet.handle K H user .none { st with receive := c', buf := buf' } m) s1
  refine ⟨u, ?_⟩
  rw [h3]
  refine hu.trans ?_
  rw [h2.log]
  show s.log ++ _ ++ u = _
  simp

/-- C62: In every session without interruptions, the next packet is handled, if it is not one of those
that make the server panic and the handlers do not fail. -/
theorem exec_message (hrun : Client.steps K H user (Client.start a) sched s = (ok (.inl st), s'))
    (hl : s'.log = s.log ++ t) (hsm : Spec.Smooth sched) (hw : s.wcap = none) (hc : Spec.Fresh a t)
    {ps : List Bytes} {rest q : Bytes}
    (hs : Spec.Arrive K (Spec.keysOf a.receive) a.receive.counter.toNat ps s.inp rest)
    (hq : ps[(Spec.payloads t).length]? = some q) (hf : ¬ Spec.FatalPacket (Spec.view t) q)
    (hsp : ∀ ty, ∃ io, H.spawn (s.log ++ t ++ [.received q]) user ty = ok io)
    (hwr : ∀ n d, ∃ k, H.write (s.log ++ t ++ [.received q]) n d = ok k) :
    (∃ st2 s2 b, Client.steps K H user (Client.start a) (sched ++ [.message]) s = (ok (.inl st2), s2) ∧
      s2.log = s.log ++ (t ++ .received q :: b) ∧ Spec.Reaction H user s.log t q b) ∨
    (∃ d s2, Spec.Legal (.disconnect d) q ∧
      Client.steps K H user (Client.start a) (sched ++ [.message]) s = (ok (.inr ()), s2) ∧
      s2.log = s.log ++ (t ++ [.received q])) := by
  obtain ⟨ht, hg⟩ := good_of hrun hl
  obtain ⟨c', buf', s1, h2, h3⟩ := exec_recv hrun hl hsm hc hs hq
  have h3 := h3 .none (by simp)
  rw [steps_snoc hrun]
  obtain ⟨u, hu⟩ := exec_logged hrun hl hsm hc hs hq
  rw [steps_snoc hrun] at hu
  have hu : (Client.message K H user .none st s').2.log = _ := hu
  have hm := message_cases hg (cut := .none) (.inl rfl)
  show (∃ st2 s2 b, Client.message K H user .none st s' = _ ∧ _) ∨
    (∃ d s2, _ ∧ Client.message K H user .none st s' = _ ∧ _)
  have hm : Stepped (Ctx.of K H user a sched s) t .none (Client.message K H user .none st s') := hm
  generalize Client.message K H user .none st s' = y at hm hu
  cases hm with
  | next hb hg' =>
    rename_i st2 b s2
    have hlog := hg'.link.log
    have hb2 : b = .received q :: u := by
      have : s.log ++ (t ++ b) = s.log ++ (t ++ .received q :: u) := hlog.symm.trans hu
      exact List.append_cancel_left (List.append_cancel_left this)
    subst hb2
    rcases Block.packet_inv hb with h | ⟨_, _, _, _, g1, _⟩ | ⟨_, _, g1, _⟩
    · exact .inl ⟨st2, s2, u, rfl, hu, h⟩
    · exact absurd g1 (hsm.not_drops (by simp))
    · exact absurd g1 (hsm.not_drops (by simp))
  | dropped h => exact absurd rfl h
  | cutRead h => exact absurd rfl h
  | same hg' =>
    have : s.log ++ t = s.log ++ (t ++ .received q :: u) := hg'.link.log.symm.trans hu
    have := List.append_cancel_left this
    simp at this
  | ended he hlog =>
    rename_i r2 b s2
    have hb2 : b = .received q :: u := by
      have : s.log ++ (t ++ b) = s.log ++ (t ++ .received q :: u) := hlog.symm.trans hu
      exact List.append_cancel_left (List.append_cancel_left this)
    have hO := hc.not (K := K) (H := H) (user := user) (sched := sched) (s := s)
    cases he with
    | disconnect h =>
      cases hb2
      exact .inr ⟨_, s2, h, rfl, hlog⟩
    | lost => cases hb2
    | write h _ => exact absurd hw h
    | fatal h => cases hb2; exact absurd h hf
    | spawnFails _ _ _ _ h =>
      cases hb2
      obtain ⟨io, hio⟩ := hsp _
      exact absurd hio (h io)
    | writeFails _ _ h =>
      cases hb2
      obtain ⟨k, hk⟩ := hwr _ _
      exact absurd hk (h k)
    | readFails => cases hb2
    | overflow h => exact absurd h hO
    | sendOverflow h _ => exact absurd h hO

/-- opening a channel, with the number that is given to it -/
theorem exec_open (hrun : Client.steps K H user (Client.start a) sched s = (ok (.inl st), s'))
    (hl : s'.log = s.log ++ t) (hsm : Spec.Smooth sched) (hw : s.wcap = none) (hc : Spec.Fresh a t)
    {ps : List Bytes} {rest q : Bytes}
    (hs : Spec.Arrive K (Spec.keysOf a.receive) a.receive.counter.toNat ps s.inp rest)
    (hq : ps[(Spec.payloads t).length]? = some q) {o : Chan.Open}
    (ho : Spec.Legal (.channel (.open o)) q) {id : UInt32} {ch : Arena Client.Chan}
    (hi : (st.channels.insert { peer := o.senderChannel, stdin := none } :
      R Client.Stop (UInt32 × Arena Client.Chan)) = ok (id, ch)) :
    ∃ st2 s2, Client.steps K H user (Client.start a) (sched ++ [.message]) s = (ok (.inl st2), s2) ∧
      s2.log = s.log ++ (t ++ [.received q, .sent (Spec.encode (Spec.confirm id o))]) ∧
      st2.channels = ch := by
  obtain ⟨c', buf', s1, h2, h3⟩ := exec_recv hrun hl hsm hc hs hq
  have h3 := h3 .none (by simp)
  rw [steps_snoc hrun]
  show ∃ st2 s2, Client.message K H user .none st s' = _ ∧ _
  rw [h3, (Message.parse_iff rfl).mpr ho]
  simp only [R.unwrap, Client.handle, Client.opened, M.bind_assoc, M.lift_ok_bind]
  rw [hi, M.lift_ok_bind]
  simp only
  rcases Link.sends (st := { st with receive := c', buf := buf', channels := ch }) (cut := .none) h2
    (.inl rfl) (writes_of_WF (m := Spec.confirm id o) trivial)
    (by simp [Spec.confirm, Spec.encode, Spec.encodeT, Spec.body]) with
    ⟨g, _⟩ | ⟨g, _⟩ | ⟨c2, buf2, s2, g1, g2 | ⟨⟨_, g2, _⟩, _⟩⟩
  · have := hc.1
    have hsent : Spec.sentPayloads (t ++ [.received q]) = Spec.sentPayloads t := by
      rw [sentPayloads_append]; exact List.append_nil _
    rw [hsent] at g
    have : 2 ^ 64 ≤ a.send.counter.toNat + (Spec.sentPayloads t).length + 1 := g
    omega
  · exact absurd hw g
  · refine ⟨_, s2, M.bind_ok g2, ?_, rfl⟩
    rw [g1.log]
    show s.log ++ _ = _
    simp
  · cases g2

/-! ### output -/

section
variable {X : Ctx}

theorem Link.send_ok {st : Client.St} (h : Link X t st.send st.receive st.buf s) (hW : ¬ X.W)
    (hn : X.n0 + (Spec.sentPayloads t).length + 1 < 2 ^ 64) {m : Message} (hm : Spec.WF m)
    (he : (Spec.encode m).length ≤ 34968) :
    ∃ c' buf' s', Link X (t ++ [.sent (Spec.encode m)]) c' st.receive buf' s' ∧
      Client.send X.K .none st m s = (ok { st with send := c', buf := buf' }, s') := by
  rcases h.sends (cut := .none) (.inl rfl) (writes_of_WF hm) he with
    ⟨g, _⟩ | ⟨g, _⟩ | ⟨c2, buf2, s2, g1, g2 | ⟨⟨_, g2, _⟩, _⟩⟩
  · omega
  · exact absurd g hW
  · exact ⟨c2, buf2, s2, g1, g2⟩
  · cases g2

/-- output is read and sent -/
theorem Link.stdout {st : Client.St} (h : Link X t st.send st.receive st.buf s) (hW : ¬ X.W)
    (hn : X.n0 + (Spec.sentPayloads t).length + 1 < 2 ^ 64) {i n : Nat} {peer : UInt32} {d : Bytes}
    (hi : st.stdouts[i]? = some (n, peer)) (hd : d ≠ []) (hd2 : d.length ≤ 256) :
    ∃ c' buf' s', Link X (t ++ [.proc (.stdout n d), .sent (Spec.encode (Spec.dataMsg peer d))])
        c' st.receive buf' s' ∧
      Client.event X.K st (.stdout i (some d)) s = (ok { st with send := c', buf := buf' }, s') := by
  obtain ⟨c', buf', s', h1, h2⟩ := (h.proc (.stdout n d)).send_ok hW
    (by rw [sentPayloads_append]; simpa [Spec.sentPayloads] using hn)
    (m := Spec.dataMsg peer d) (show Spec.Fits _ by simp only [Spec.Fits]; omega)
    (dataMsg_length hd2)
  refine ⟨c', buf', s', ?_, ?_⟩
  · rw [List.append_assoc] at h1; exact h1
  · rw [Client.event, hi]
    simp only
    rw [M.bind_ok (M.logEvent_run _ _), List.take_of_length_le hd2,
      if_pos (List.length_pos_iff.mpr hd)]
    exact h2

theorem Link.stderr {st : Client.St} (h : Link X t st.send st.receive st.buf s) (hW : ¬ X.W)
    (hn : X.n0 + (Spec.sentPayloads t).length + 1 < 2 ^ 64) {i n : Nat} {peer : UInt32} {d : Bytes}
    (hi : st.stderrs[i]? = some (n, peer)) (hd : d ≠ []) (hd2 : d.length ≤ 256) :
    ∃ c' buf' s', Link X (t ++ [.proc (.stderr n d), .sent (Spec.encode (Spec.dataMsg peer d))])
        c' st.receive buf' s' ∧
      Client.event X.K st (.stderr i (some d)) s = (ok { st with send := c', buf := buf' }, s') := by
  obtain ⟨c', buf', s', h1, h2⟩ := (h.proc (.stderr n d)).send_ok hW
    (by rw [sentPayloads_append]; simpa [Spec.sentPayloads] using hn)
    (m := Spec.dataMsg peer d) (show Spec.Fits _ by simp only [Spec.Fits]; omega)
    (dataMsg_length hd2)
  refine ⟨c', buf', s', ?_, ?_⟩
  · rw [List.append_assoc] at h1; exact h1
  · rw [Client.event, hi]
    simp only
    rw [M.bind_ok (M.logEvent_run _ _), List.take_of_length_le hd2,
      if_pos (List.length_pos_iff.mpr hd)]
    exact h2

theorem Link.stdoutEnd {st : Client.St} (h : Link X t st.send st.receive st.buf s) (hW : ¬ X.W)
    (hn : X.n0 + (Spec.sentPayloads t).length + 2 < 2 ^ 64) {i n : Nat} {peer : UInt32}
    (hi : st.stdouts[i]? = some (n, peer)) :
    ∃ c' buf' s', Link X (t ++ [.proc (.stdout n []), .sent (Spec.encode (Spec.eofMsg peer)),
        .sent (Spec.encode (Spec.closeMsg peer))]) c' st.receive buf' s' ∧
      Client.event X.K st (.stdout i (some [])) s =
        (ok { st with send := c', buf := buf', stdouts := st.stdouts.eraseIdx i }, s') := by
  obtain ⟨c', buf', s', h1, h2⟩ := Link.send_ok (st := { st with stdouts := st.stdouts.eraseIdx i })
    (h.proc (.stdout n [])) hW
    (by rw [sentPayloads_append]; simp [Spec.sentPayloads] at hn ⊢; omega)
    (m := Spec.eofMsg peer) trivial (encode_small (.inr (.inr (.inl rfl))))
  obtain ⟨c2, buf2, s2, h3, h4⟩ := Link.send_ok
    (st := { st with stdouts := st.stdouts.eraseIdx i, send := c', buf := buf' })
    h1 hW (by
      rw [sentPayloads_append, sentPayloads_append]
      simp [Spec.sentPayloads] at hn ⊢; omega)
    (m := Spec.closeMsg peer) trivial (encode_small (.inr (.inr (.inr rfl))))
  refine ⟨c2, buf2, s2, ?_, ?_⟩
  · rw [List.append_assoc, List.append_assoc] at h3; exact h3
  · rw [Client.event, hi]
    simp only
    rw [M.bind_ok (M.logEvent_run _ _), List.take_nil, if_neg (by simp)]
    exact (M.bind_ok h2).trans h4

theorem Link.stderrEnd {st : Client.St} (h : Link X t st.send st.receive st.buf s) {i n : Nat}
    {peer : UInt32} (hi : st.stderrs[i]? = some (n, peer)) :
    ∃ s', Link X (t ++ [.proc (.stderr n [])]) st.send st.receive st.buf s' ∧
      Client.event X.K st (.stderr i (some [])) s =
        (ok { st with stderrs := st.stderrs.eraseIdx i }, s') := by
  refine ⟨_, h.proc (.stderr n []), ?_⟩
  rw [Client.event, hi]
  simp only
  rw [M.bind_ok (M.logEvent_run _ _), List.take_nil, if_neg (by simp)]
  rfl

theorem Link.exit {st : Client.St} (h : Link X t st.send st.receive st.buf s) (hW : ¬ X.W)
    (hn : X.n0 + (Spec.sentPayloads t).length + 1 < 2 ^ 64) {i n : Nat} {peer : UInt32}
    (hi : st.waits[i]? = some (n, peer)) (status : UInt32) :
    ∃ c' buf' s', Link X (t ++ [.proc (.exited n status),
        .sent (Spec.encode (Spec.exitMsg peer status))]) c' st.receive buf' s' ∧
      Client.event X.K st (.exit i (some status)) s =
        (ok { st with send := c', buf := buf', waits := st.waits.eraseIdx i }, s') := by
  obtain ⟨c', buf', s', h1, h2⟩ := Link.send_ok (st := { st with waits := st.waits.eraseIdx i })
    (h.proc (.exited n status)) hW
    (by rw [sentPayloads_append]; simpa [Spec.sentPayloads] using hn)
    (m := Spec.exitMsg peer status) (by show Spec.Fits (b! "exit-status"); decide)
    (by simp [Spec.exitMsg, Spec.encode, Spec.encodeT, Spec.body, Spec.boolT])
  refine ⟨c', buf', s', ?_, ?_⟩
  · rw [List.append_assoc] at h1; exact h1
  · rw [Client.event, hi]
    simp only [exitStatus_eq]
    rw [M.bind_ok (M.logEvent_run _ _), M.lift_ok_bind]
    exact h2

end

/-- C62: In every session in which no reply was interrupted, each process that is still read from or
waited for can have its output passed on: whatever it writes next, its end of output, its exit. For each
there is an event of the schedule with which exactly this happens. -/
theorem exec_output (hrun : Client.steps K H user (Client.start a) sched s = (ok (.inl st), s'))
    (hl : s'.log = s.log ++ t) (hcut : ∀ n, ¬ Spec.Drops sched (.write n)) (hw : s.wcap = none)
    (hc : Spec.Fresh a t) {b : List Event}
    (hb : Spec.Block H user (fun _ => False) s.log t b) (hp : Spec.payloads b = []) :
    ∃ e st2 s2, Client.steps K H user (Client.start a) (sched ++ [.event .none e]) s =
        (ok (.inl st2), s2) ∧ s2.log = s.log ++ (t ++ b) := by
  obtain ⟨ht, hg⟩ := good_of hrun hl
  have hW : ¬ (Ctx.of K H user a sched s).W := fun h => h hw
  have hn : (Ctx.of K H user a sched s).n0 + (Spec.sentPayloads t).length + 2 < 2 ^ 64 := hc.1
  have hn1 : (Ctx.of K H user a sched s).n0 + (Spec.sentPayloads t).length + 1 < 2 ^ 64 := by omega
  have fin : ∀ {e st2 s2 c d buf}, Link (Ctx.of K H user a sched s) (t ++ b) c d buf s2 →
      Client.event K st e s' = (ok st2, s2) →
      ∃ e st2 s2, Client.steps K H user (Client.start a) (sched ++ [.event .none e]) s =
        (ok (.inl st2), s2) ∧ s2.log = s.log ++ (t ++ b) := by
    intro e st2 s2 c d buf h1 h2
    exact ⟨e, st2, s2, by rw [steps_snoc hrun]; exact M.bind_ok h2, h1.log⟩
  cases hb with
  | packet => cases hp
  | lostSpawn h => exact h.elim
  | lostData h => exact h.elim
  | stdout h1 h2 h3 h4 =>
    obtain ⟨i, peer, g1, g2⟩ := (C44_reading_partial hrun hcut hl _).1 h1
    rw [h2] at g2
    cases g2
    obtain ⟨_, _, _, k1, k2⟩ := hg.link.stdout hW hn1 g1 h3 h4
    exact fin k1 k2
  | stdoutEnd h1 h2 =>
    obtain ⟨i, peer, g1, g2⟩ := (C44_reading_partial hrun hcut hl _).1 h1
    rw [h2] at g2
    cases g2
    obtain ⟨_, _, _, k1, k2⟩ := hg.link.stdoutEnd hW hn g1
    exact fin k1 k2
  | stderr h1 h2 h3 h4 =>
    obtain ⟨i, peer, g1, g2⟩ := (C44_reading_partial hrun hcut hl _).2.1 h1
    rw [h2] at g2
    cases g2
    obtain ⟨_, _, _, k1, k2⟩ := hg.link.stderr hW hn1 g1 h3 h4
    exact fin k1 k2
  | stderrEnd h1 h2 =>
    obtain ⟨i, peer, g1, g2⟩ := (C44_reading_partial hrun hcut hl _).2.1 h1
    rw [h2] at g2
    cases g2
    obtain ⟨_, k1, k2⟩ := hg.link.stderrEnd g1
    exact fin k1 k2
  | exit h1 h2 =>
    obtain ⟨i, peer, g1, g2⟩ := (C44_reading_partial hrun hcut hl _).2.2 h1
    rw [h2] at g2
    cases g2
    obtain ⟨_, _, _, k1, k2⟩ := hg.link.exit hW hn1 g1 _
    exact fin k1 k2

/-! ### interruptions -/

theorem step_cut {cut : Client.Cut} {st st1 : Client.St} {s s1 : IoSt} {e : Client.Ev}
    (hc : cut ≠ .none) (h : Client.message K H user cut st s = (err (.dropped st1), s1)) :
    Client.step K H user st (.event cut e) s =
      (Client.event K st1 e >>= fun st => pure (.inl st)) s1 := by
  have : Client.step K H user st (.event cut e) = (do
      match ← Client.dropReceive (Client.message K H user cut st) with
      | .inl st => do pure (.inl (← Client.event K st e))
      | .inr () => pure (.inr ())) := by
    cases cut with
    | none => exact absurd rfl hc
    | _ => rfl
  rw [this, M.bind_ok (a := .inl st1) (s' := s1) (by rw [Client.dropReceive, h])]

theorem Link.any {X : Ctx} {c d : ChaCha} {buf : Bytes} {s : IoSt} (h : Link X t c d buf s) :
    Link { X with A := fun _ => True } t c d buf s :=
  ⟨h.log, h.cap, h.buf, h.sendKeys, h.receiveKeys, h.sendCounter, h.receiveCounter,
    fun h => absurd trivial (h 0), fun h => absurd trivial (h 0)⟩

theorem get_of_view (hrun : Client.steps K H user (Client.start a) sched s = (ok (.inl st), s'))
    (hl : s'.log = s.log ++ t) {id peer : UInt32} (h : (Spec.view t).peers id = some peer) :
    ∃ ch, st.channels.get id = some ch ∧ ch.peer = peer ∧ ch.stdin = (Spec.view t).stdins id := by
  obtain ⟨h1, h2⟩ := C40_state hrun hl id
  cases hg : st.channels.get id with
  | none => rw [hg, h] at h1; cases h1
  | some ch =>
    rw [hg, h] at h1
    rw [hg] at h2
    exact ⟨ch, rfl, Option.some.inj h1, h2⟩

/-- output of a process is read while the handler `spawn` runs for a request -/
theorem exec_spawnCut (hrun : Client.steps K H user (Client.start a) sched s = (ok (.inl st), s'))
    (hl : s'.log = s.log ++ t) (hsm : Spec.Smooth sched) (hw : s.wcap = none) (hc : Spec.Fresh a t)
    {ps : List Bytes} {rest q : Bytes}
    (hs : Spec.Arrive K (Spec.keysOf a.receive) a.receive.counter.toNat ps s.inp rest)
    (hq : ps[(Spec.payloads t).length]? = some q) {r : Chan.Request} {x : SessionRequest}
    {ty : SpawnType} {peer : UInt32} (hr : Spec.Legal (.channel (.request r)) q)
    (hp : (Spec.view t).peers r.recipientChannel = some peer) (hx : Spec.Asks r x)
    (hty : Spec.runs x = some ty) {i n : Nat} {peer' : UInt32} {d : Bytes}
    (hi : st.stdouts[i]? = some (n, peer')) (hd : d ≠ []) (hd2 : d.length ≤ 256) :
    ∃ st2 s2, Client.steps K H user (Client.start a)
        (sched ++ [.event .spawn (.stdout i (some d))]) s = (ok (.inl st2), s2) ∧
      s2.log = s.log ++ (t ++ [.received q, .proc (.spawn ty (Spec.view t).procs),
        .proc (.stdout n d), .sent (Spec.encode (Spec.dataMsg peer' d))]) := by
  obtain ⟨ht, hg⟩ := good_of hrun hl
  obtain ⟨c', buf', s1, h2, h3⟩ := exec_recv hrun hl hsm hc hs hq
  obtain ⟨ch, hch, _⟩ := get_of_view hrun hl hp
  have h3 := h3 .spawn (by simp)
  have hm : Client.message K H user .spawn st s' =
      (err (.dropped { st with receive := c', buf := buf', procs := st.procs + 1 }),
        { s1 with log := s1.log ++ [.proc (.spawn ty st.procs)] }) := by
    rw [h3, (Message.parse_iff rfl).mpr hr]
    have hrun' : ∀ f, (Client.run K H user .spawn { st with receive := c', buf := buf' } r ch ty >>=
        f : M Client.Stop (Client.St ⊕ Unit)) s1 =
        (err (.dropped { st with receive := c', buf := buf', procs := st.procs + 1 }),
          { s1 with log := s1.log ++ [.proc (.spawn ty st.procs)] }) := fun f => rfl
    simp only [R.unwrap, Client.handle, Client.request, M.lift_ok_bind, hch,
      SessionRequest.parse_iff.mpr hx]
    cases x with
    | shell => cases hty; exact hrun' _
    | exec => cases hty; exact hrun' _
    | _ => cases hty
  rw [steps_snoc hrun, step_cut (by simp) hm]
  have hL := (h2.any.proc (.spawn ty st.procs))
  obtain ⟨c2, buf2, s2, k1, k2⟩ := Link.stdout
    (st := { st with receive := c', buf := buf', procs := st.procs + 1 }) (i := i) (n := n)
    (peer := peer') (d := d) hL (fun h => h hw) (by
      have := hc.1
      rw [sentPayloads_append, sentPayloads_append]
      show a.send.counter.toNat + _ + 1 < _
      simp [Spec.sentPayloads] at this ⊢
      omega) hi hd hd2
  refine ⟨_, s2, M.bind_ok k2, ?_⟩
  rw [k1.log, hg.agrees.procs]
  show s.log ++ _ = _
  simp

/-- output of a process is read while the data waits for a process to take it -/
theorem exec_stdinCut (hrun : Client.steps K H user (Client.start a) sched s = (ok (.inl st), s'))
    (hl : s'.log = s.log ++ t) (hsm : Spec.Smooth sched) (hw : s.wcap = none) (hc : Spec.Fresh a t)
    {ps : List Bytes} {rest q : Bytes}
    (hs : Spec.Arrive K (Spec.keysOf a.receive) a.receive.counter.toNat ps s.inp rest)
    (hq : ps[(Spec.payloads t).length]? = some q) {x : Chan.Data}
    {peer : UInt32} {m : Nat} (hr : Spec.Legal (.channel (.data x)) q)
    (hp : (Spec.view t).peers x.recipientChannel = some peer)
    (hp2 : (Spec.view t).stdins x.recipientChannel = some m) {i n : Nat} {peer' : UInt32} {d : Bytes}
    (hi : st.stdouts[i]? = some (n, peer')) (hd : d ≠ []) (hd2 : d.length ≤ 256) :
    ∃ st2 s2, Client.steps K H user (Client.start a)
        (sched ++ [.event .stdin (.stdout i (some d))]) s = (ok (.inl st2), s2) ∧
      s2.log = s.log ++ (t ++ [.received q,
        .proc (.stdout n d), .sent (Spec.encode (Spec.dataMsg peer' d))]) := by
  obtain ⟨ht, hg⟩ := good_of hrun hl
  obtain ⟨c', buf', s1, h2, h3⟩ := exec_recv hrun hl hsm hc hs hq
  obtain ⟨ch, hch, _, hst⟩ := get_of_view hrun hl hp
  have h3 := h3 .stdin (by simp)
  have hm : Client.message K H user .stdin st s' =
      (err (.dropped { st with receive := c', buf := buf' }), s1) := by
    rw [h3, (Message.parse_iff rfl).mpr hr]
    simp only [R.unwrap, Client.handle, Client.data, M.lift_ok_bind, hch, hst, hp2, if_true]
    rfl
  rw [steps_snoc hrun, step_cut (by simp) hm]
  obtain ⟨c2, buf2, s2, k1, k2⟩ := Link.stdout
    (st := { st with receive := c', buf := buf' }) (i := i) (n := n)
    (peer := peer') (d := d) h2.any (fun h => h hw) (by
      have := hc.1
      rw [sentPayloads_append]
      show a.send.counter.toNat + _ + 1 < _
      simp [Spec.sentPayloads] at this ⊢
      omega) hi hd hd2
  refine ⟨_, s2, M.bind_ok k2, ?_⟩
  rw [k1.log]
  show s.log ++ _ = _
  simp

/-- output of a process is read when only some bytes of a packet have arrived -/
theorem exec_readCut (hrun : Client.steps K H user (Client.start a) sched s = (ok (.inl st), s'))
    (hl : s'.log = s.log ++ t) (hw : s.wcap = none) (hc : Spec.Fresh a t)
    (h3 : 3 ≤ s'.inp.length) {i n : Nat} {peer' : UInt32} {d : Bytes}
    (hi : st.stdouts[i]? = some (n, peer')) (hd : d ≠ []) (hd2 : d.length ≤ 256) :
    ∃ st2 s2, Client.steps K H user (Client.start a)
        (sched ++ [.event (.read 3) (.stdout i (some d))]) s = (ok (.inl st2), s2) ∧
      s2.log = s.log ++ (t ++ [.proc (.stdout n d), .sent (Spec.encode (Spec.dataMsg peer' d))]) ∧
      s2.inp = s'.inp.drop 3 := by
  obtain ⟨ht, hg⟩ := good_of hrun hl
  have hm : Client.message K H user (.read 3) st s' =
      (err (.dropped { st with buf := s'.inp.take 3 ++ st.buf.drop 3 }),
        { s' with inp := s'.inp.drop 3 }) := by
    simp only [Client.message, Client.readCut]
    rw [if_neg (by omega), if_pos (by omega)]
  rw [steps_snoc hrun, step_cut (by simp) hm]
  have hk := hg.link.any
  have hbuf : (s'.inp.take 3 ++ st.buf.drop 3).length = 35000 := by
    have := hk.buf
    simp only [List.length_append, List.length_take, List.length_drop]
    omega
  have hL : Link { Ctx.of K H user a sched s with A := fun _ => True } t st.send st.receive
      (s'.inp.take 3 ++ st.buf.drop 3) { s' with inp := s'.inp.drop 3 } :=
    ⟨hk.log, hk.cap, hbuf, hk.sendKeys, hk.receiveKeys, hk.sendCounter, hk.receiveCounter,
      fun h => absurd trivial (h 0), fun h => absurd trivial (h 0)⟩
  have hn : a.send.counter.toNat + (Spec.sentPayloads t).length + 1 < 2 ^ 64 := by
    have := hc.1
    omega
  obtain ⟨c2, buf2, s2, k1, k2⟩ := Link.stdout
    (st := { st with buf := s'.inp.take 3 ++ st.buf.drop 3 }) (i := i) (n := n)
    (peer := peer') (d := d) hL (fun h => h hw) hn hi hd hd2
  refine ⟨_, s2, M.bind_ok k2, k1.log, ?_⟩
  rw [Client.event, hi] at k2
  simp only at k2
  rw [M.bind_ok (M.logEvent_run _ _), List.take_of_length_le hd2,
    if_pos (List.length_pos_iff.mpr hd)] at k2
  have hlen := dataMsg_length (n := peer') hd2
  rcases Client.send_cases K .none { st with buf := s'.inp.take 3 ++ st.buf.drop 3 }
    (writes_of_WF (m := Spec.dataMsg peer' d) (show Spec.Fits _ by simp only [Spec.Fits]; omega)) _
    (by simp only; rw [hbuf]; omega) (by simp only; rw [hbuf]; omega) with
    ⟨_, s3, g1, _⟩ | ⟨k, raw, c3, buf3, s3, _, _, _, _, _, _, g1, _, _, g2⟩
  · rw [show Client.send K .none _ (Spec.dataMsg peer' d) _ = _ from k2] at g1
    cases g1
  · rcases g2 with ⟨g2, _⟩ | ⟨_, g2⟩ | ⟨_, g2, _⟩
    · rw [show Client.send K .none _ (Spec.dataMsg peer' d) _ = _ from k2] at g2
      cases g2
      exact g1
    · rw [show Client.send K .none _ (Spec.dataMsg peer' d) _ = _ from k2] at g2
      cases g2
    · cases g2

/-- output of a process is read before any byte of the reply to a request is written -/
theorem exec_writeCut (hrun : Client.steps K H user (Client.start a) sched s = (ok (.inl st), s'))
    (hl : s'.log = s.log ++ t) (hsm : Spec.Smooth sched) (hw : s.wcap = none) (hc : Spec.Fresh a t)
    {ps : List Bytes} {rest q : Bytes}
    (hs : Spec.Arrive K (Spec.keysOf a.receive) a.receive.counter.toNat ps s.inp rest)
    (hq : ps[(Spec.payloads t).length]? = some q) {r : Chan.Request} {x : SessionRequest}
    {ty : SpawnType} {peer : UInt32} (hr : Spec.Legal (.channel (.request r)) q)
    (hp : (Spec.view t).peers r.recipientChannel = some peer)
    (hp2 : (Spec.view t).stdins r.recipientChannel = none) (hx : Spec.Asks r x)
    (hty : Spec.runs x = some ty) (hwant : r.wantReply = true) {io : IoSet}
    (hio : H.spawn (s.log ++ t ++ [.received q]) user ty = ok io) {i n : Nat} {peer' : UInt32}
    {d : Bytes} (hi : st.stdouts[i]? = some (n, peer')) (hd : d ≠ []) (hd2 : d.length ≤ 256) :
    ∃ st2 s2, Client.steps K H user (Client.start a)
        (sched ++ [.event (.write 0) (.stdout i (some d))]) s = (ok (.inl st2), s2) ∧
      s2.log = s.log ++ (t ++ [.received q, .proc (.spawn ty (Spec.view t).procs),
        .proc (.started (Spec.view t).procs io.stdin io.stdout io.stderr),
        .sent (Spec.encode (Spec.success peer)),
        .proc (.stdout n d), .sent (Spec.encode (Spec.dataMsg peer' d))]) ∧
      st2.stdouts = st.stdouts ∧ st2.stderrs = st.stderrs ∧ st2.waits = st.waits := by
  obtain ⟨ht, hg⟩ := good_of hrun hl
  obtain ⟨c', buf', s1, h2, h3⟩ := exec_recv hrun hl hsm hc hs hq
  obtain ⟨ch, hch, hpeer, hst⟩ := get_of_view hrun hl hp
  rw [hp2] at hst
  have h3 := h3 (.write 0) (by simp)
  generalize hch2 : ({ ch with stdin := if io.stdin then some st.procs else none } : Client.Chan) =
    ch2 at *
  generalize hst1 : ({ st with
      receive := c'
      buf := buf'
      channels := st.channels.put r.recipientChannel ch2
      procs := st.procs + 1 } : Client.St) = st1
  have hL := (h2.any.proc (.spawn ty st.procs)).proc (.started st.procs io.stdin io.stdout io.stderr)
  have hL : Link { Ctx.of K H user a sched s with A := fun _ => True }
      (t ++ [.received q] ++ [.proc (.spawn ty st.procs)] ++
        [.proc (.started st.procs io.stdin io.stdout io.stderr)]) st1.send st1.receive st1.buf
      { s1 with log := s1.log ++ [.proc (.spawn ty st.procs)] ++
        [.proc (.started st.procs io.stdin io.stdout io.stderr)] } := by
    subst hst1
    exact hL
  have hsent : (Spec.sentPayloads (t ++ [.received q] ++ [.proc (.spawn ty st.procs)] ++
        [.proc (.started st.procs io.stdin io.stdout io.stderr)])).length =
      (Spec.sentPayloads t).length := by
    rw [sentPayloads_append, sentPayloads_append, sentPayloads_append]
    simp [Spec.sentPayloads]
  have hn : a.send.counter.toNat + (Spec.sentPayloads t).length + 2 < 2 ^ 64 := hc.1
  have hlog1 : s1.log = s.log ++ t ++ [.received q] := by rw [List.append_assoc]; exact h2.log
  generalize hS : ({ s1 with log := s1.log ++ [.proc (.spawn ty st.procs)] ++
        [.proc (.started st.procs io.stdin io.stdout io.stderr)] } : IoSt) = S at hL
  obtain ⟨c2, buf2, s2, h4, h5⟩ : ∃ c2 buf2 s2,
      Link { Ctx.of K H user a sched s with A := fun _ => True }
        ((t ++ [.received q] ++ [.proc (.spawn ty st.procs)] ++
          [.proc (.started st.procs io.stdin io.stdout io.stderr)]) ++
          [.sent (Spec.encode (Spec.success peer))]) c2 st1.receive buf2 s2 ∧
      Client.send K (.write 0) st1 (Spec.success peer) S =
        (err (.dropped { st1 with send := c2, buf := buf2 }), s2) := by
    rcases hL.sends (cut := .write 0) (.inr trivial)
      (writes_of_WF (m := Spec.success peer) trivial) (encode_small (.inl rfl)) with
      ⟨g, _⟩ | ⟨g, _⟩ | ⟨c2, buf2, s2, g1, g2 | ⟨_, g2⟩⟩
    · rw [hsent] at g
      have : 2 ^ 64 ≤ a.send.counter.toNat + (Spec.sentPayloads t).length + 1 := g
      omega
    · exact absurd hw g
    · exfalso
      have hbuf := hL.buf
      have hle : (Spec.encode (Spec.success peer)).length ≤ 34968 := encode_small (.inl rfl)
      obtain ⟨k, hk, ⟨hc', raw, c3, buf3, hpk, hseal, _⟩ | ⟨_, hs'⟩⟩ := Out.seal_cases K st1.send st1.buf
        (writes_of_WF (m := Spec.success peer) trivial) S (by omega) (by omega)
      · have g2 : Client.send K (.write 0) st1 (Spec.success peer) S = _ := g2
        simp only [Client.send] at g2
        rw [M.bind_ok (by rw [M.mapErr_run, hseal]; rfl)] at g2
        have hpos : 0 < (Spec.sealed K (Spec.keysOf st1.send) st1.send.counter.toNat raw).length := by
          simp only [Spec.sealed, List.length_append, mac_length]
          omega
        simp only at g2
        rw [if_pos hpos, M.bind_run, M.mapErr_run] at g2
        revert g2
        rcases M.writeAll (List.take 0 (Spec.sealed K (Spec.keysOf st1.send)
          st1.send.counter.toNat raw)) _ with ⟨r, s4⟩
        intro g2
        cases r <;> cases g2
      · have g2 : Client.send K (.write 0) st1 (Spec.success peer) S = _ := g2
        simp only [Client.send] at g2
        rw [M.bind_panic (by rw [M.mapErr_run, hs']; rfl)] at g2
        cases g2
    · exact ⟨c2, buf2, s2, g1, g2⟩
  have hrun' : ∀ f, (Client.run K H user (.write 0) { st with receive := c', buf := buf' } r ch ty >>=
      f : M Client.Stop (Client.St ⊕ Unit)) s1 =
      (err (.dropped { st1 with send := c2, buf := buf2 }), s2) := by
    intro f
    refine M.bind_err ?_
    have hspawn : Client.spawn H user (.write 0) { st with receive := c', buf := buf' }
        r.recipientChannel ch ty s1 = (ok (st1, io), S) := by
      subst hS hst1 hch2
      simp only [Client.spawn, Client.closeStdin, hst]
      rw [M.bind_run]
      simp only [M.getLog]
      rw [M.bind_ok (M.logEvent_run _ _)]
      rw [if_neg (by simp), hlog1, hio]
      simp only [R.unwrap, M.lift_ok_bind]
      rw [M.bind_ok (M.logEvent_run _ _)]
      rfl
    rw [Client.run, M.bind_ok hspawn]
    simp only
    rw [Client.reply, hwant, hpeer]
    exact M.bind_err h5
  have hm : Client.message K H user (.write 0) st s' =
      (err (.dropped { st1 with send := c2, buf := buf2 }), s2) := by
    rw [h3, (Message.parse_iff rfl).mpr hr]
    simp only [R.unwrap, Client.handle, Client.request, M.lift_ok_bind, hch,
      SessionRequest.parse_iff.mpr hx]
    cases x with
    | shell => cases hty; exact hrun' _
    | exec => cases hty; exact hrun' _
    | _ => cases hty
  rw [steps_snoc hrun, step_cut (by simp) hm]
  obtain ⟨c4, buf4, s4, k1, k2⟩ := Link.stdout
    (st := { st1 with send := c2, buf := buf2 }) (i := i) (n := n)
    (peer := peer') (d := d) h4 (fun h => h hw) (by
      rw [sentPayloads_append, List.length_append, hsent]
      show a.send.counter.toNat + _ + 1 < _
      simp [Spec.sentPayloads] at hn ⊢
      omega) (by subst hst1; exact hi) hd hd2
  refine ⟨_, s4, M.bind_ok k2, ?_, ?_⟩
  · rw [k1.log, hg.agrees.procs]
    show s.log ++ _ = _
    simp
  · subst hst1
    exact ⟨rfl, rfl, rfl⟩

end

end Nora
