import Verif.Lemmas.ConnSend
import Verif.Props.Arena
import Verif.Lemmas.Session
/-
The invariant of a client session: the state agrees with what its log says.
-/
namespace Nora
open R

/-- what is fixed for a session: see `Link` -/
structure Ctx where
  K : Crypto
  H : ConnHandlers
  user : Nat
  A : Client.Cut → Prop
  W : Prop
  F : Prop
  l0 : List Event
  ks : Spec.Keys
  kr : Spec.Keys
  n0 : Nat
  m0 : Nat
  inp0 : Bytes
  out0 : Bytes

/-- the ciphers, the buffer and the streams after the events `t` -/
structure Link (X : Ctx) (t : List Event) (send receive : ChaCha) (buf : Bytes) (s : IoSt) :
    Prop where
  log : s.log = X.l0 ++ t
  cap : s.wcap ≠ none → X.W
  buf : buf.length = 35000
  sendKeys : Spec.keysOf send = X.ks
  receiveKeys : Spec.keysOf receive = X.kr
  sendCounter : send.counter.toNat = X.n0 + (Spec.sentPayloads t).length
  receiveCounter : receive.counter.toNat = X.m0 + (Spec.payloads t).length
  out : (∀ n, ¬ X.A (.write n)) → ∃ w, s.out = X.out0 ++ w ∧
    Spec.Stream X.K X.ks X.n0 (Spec.sentPayloads t) w []
  inp : (∀ n, ¬ X.A (.read n)) → ∀ ps rest, Spec.Arrive X.K X.kr X.m0 ps X.inp0 rest →
    (Spec.payloads t).length ≤ ps.length → Spec.payloads t <+: ps ∧
    Spec.Arrive X.K X.kr (X.m0 + (Spec.payloads t).length) (ps.drop (Spec.payloads t).length)
      s.inp rest

/-- a packet counter is about to be exhausted after the events `t` -/
def Ctx.O (X : Ctx) (t : List Event) : Prop :=
  2 ^ 64 ≤ X.n0 + (Spec.sentPayloads t).length + 2 ∨ 2 ^ 64 ≤ X.m0 + (Spec.payloads t).length + 1

/-- no packet is left after the events `t`, if the client has sent well-formed packets and none was
received partially -/
def Ctx.L (X : Ctx) (t : List Event) : Prop :=
  (∀ n, ¬ X.A (.read n)) → ∀ ps rest, Spec.Arrive X.K X.kr X.m0 ps X.inp0 rest →
    X.m0 + (Spec.payloads t).length + 1 < 2 ^ 64 → ps.length ≤ (Spec.payloads t).length

theorem payloads_append (t u : List Event) :
    Spec.payloads (t ++ u) = Spec.payloads t ++ Spec.payloads u := List.filterMap_append

theorem sentPayloads_append (t u : List Event) :
    Spec.sentPayloads (t ++ u) = Spec.sentPayloads t ++ Spec.sentPayloads u := List.filterMap_append

theorem Spec.Stream.concat {K : Crypto} {k : Spec.Keys} {ps qs : List Bytes} {w w' rest : Bytes} :
    ∀ {n : Nat}, Spec.Stream K k n ps w [] → Spec.Stream K k (n + ps.length) qs w' rest →
    Spec.Stream K k n (ps ++ qs) (w ++ w') rest := by
  induction ps generalizing w with
  | nil =>
    intro n h h'
    cases h
    exact h'
  | cons p ps ih =>
    rintro n ⟨padding, raw, w1, h1, h2, rfl, h4⟩ h'
    refine ⟨padding, raw, w1 ++ w', h1, h2, by simp, ih h4 ?_⟩
    rw [List.length_cons, show n + (ps.length + 1) = n + 1 + ps.length by omega] at h'
    exact h'

section
variable {X : Ctx} {t : List Event} {sc receive : ChaCha} {buf : Bytes} {s : IoSt}

/-- an event that is neither sent nor received -/
theorem Link.proc (h : Link X t sc receive buf s) (e : ProcEvent) :
    Link X (t ++ [.proc e]) sc receive buf { s with log := s.log ++ [.proc e] } := by
  have h1 : Spec.payloads (t ++ [.proc e]) = Spec.payloads t := by
    rw [payloads_append]; exact List.append_nil _
  have h2 : Spec.sentPayloads (t ++ [.proc e]) = Spec.sentPayloads t := by
    rw [sentPayloads_append]; exact List.append_nil _
  exact ⟨by rw [h.log, List.append_assoc], h.cap, h.buf, h.sendKeys, h.receiveKeys,
    by rw [h2]; exact h.sendCounter, by rw [h1]; exact h.receiveCounter,
    by rw [h2]; exact h.out, by rw [h1]; exact h.inp⟩

/-- sending a message -/
theorem Link.sends {st : Client.St} {cut : Client.Cut} (h : Link X t st.send st.receive st.buf s)
    (hcut : cut = .none ∨ X.A cut)
    {m : Message} {e : Bytes} (hm : Writes m e) (he : e.length ≤ 34968) :
    (2 ^ 64 ≤ X.n0 + (Spec.sentPayloads t).length + 1 ∧
      ∃ s', Client.send X.K cut st m s = (R.panic, s') ∧ s'.log = s.log) ∨
    (X.W ∧ ∃ s', Client.send X.K cut st m s = (err .out, s') ∧ s'.log = s.log ++ [.sent e]) ∨
    ∃ c' buf' s', Link X (t ++ [.sent e]) c' st.receive buf' s' ∧
      (Client.send X.K cut st m s = (ok { st with send := c', buf := buf' }, s') ∨
       ((∃ n, cut = .write n ∧ X.A (.write n)) ∧ Client.send X.K cut st m s =
          (err (.dropped { st with send := c', buf := buf' }), s'))) := by
  have hs : Spec.sentPayloads (t ++ [.sent e]) = Spec.sentPayloads t ++ [e] := by
    rw [sentPayloads_append]; rfl
  have hr : Spec.payloads (t ++ [.sent e]) = Spec.payloads t := by
    rw [payloads_append]; exact List.append_nil _
  rcases Client.send_cases X.K cut st hm s (by rw [h.buf]; omega) (by rw [h.buf]; omega) with
    ⟨hc, s', h1, h2⟩ | ⟨k, raw, c', buf', s', hk, hp, hrl, hc, hkeys, hb, hi, hl, hcap, h3⟩
  · exact .inl ⟨by rw [h.sendCounter] at hc; omega, s', h1, h2⟩
  have base : (∀ n, ¬ X.A (.write n)) → s'.out = s.out ++ Spec.sealed X.K (Spec.keysOf st.send)
      st.send.counter.toNat raw → ∃ w, s'.out = X.out0 ++ w ∧
      Spec.Stream X.K X.ks X.n0 (Spec.sentPayloads (t ++ [.sent e])) w [] := by
    intro ha ho
    obtain ⟨w, hw, hst⟩ := h.out ha
    refine ⟨w ++ Spec.sealed X.K X.ks (X.n0 + (Spec.sentPayloads t).length) raw, ?_, ?_⟩
    · rw [ho, hw, h.sendKeys, h.sendCounter, List.append_assoc]
    · rw [hs]
      exact hst.concat ⟨_, raw, [], hp, by rw [h.buf] at hrl; exact hrl, by simp, rfl⟩
  have rest : ((∀ n, ¬ X.A (.write n)) → s'.out = s.out ++ Spec.sealed X.K (Spec.keysOf st.send)
      st.send.counter.toNat raw) → Link X (t ++ [.sent e]) c' st.receive buf' s' := by
    intro ho
    refine ⟨by rw [hl, h.log, List.append_assoc], ?_, by rw [hb, h.buf], by rw [hkeys, h.sendKeys],
      h.receiveKeys, by rw [hc, h.sendCounter, hs, List.length_append]; rfl,
      by rw [hr]; exact h.receiveCounter, fun ha => base ha (ho ha), by rw [hr, hi]; exact h.inp⟩
    intro hw
    exact h.cap fun e => hw (hcap e)
  rcases h3 with ⟨h3, ho⟩ | ⟨hw, h3⟩ | ⟨n, rfl, h3⟩
  · exact .inr (.inr ⟨c', buf', s', rest fun _ => ho, .inl h3⟩)
  · exact .inr (.inl ⟨h.cap hw, s', h3, hl⟩)
  · have ha : X.A (.write n) := by
      rcases hcut with h | h
      · cases h
      · exact h
    exact .inr (.inr ⟨c', buf', s', rest fun hn => absurd ha (hn n), .inr ⟨⟨n, rfl, ha⟩, h3⟩⟩)

/-- receiving a packet -/
theorem Link.recv (h : Link X t sc receive buf s) :
    (X.L t ∧ ∃ e s', In.recv X.K receive buf s = (err e, s') ∧ s'.log = s.log) ∨
    (2 ^ 64 ≤ X.m0 + (Spec.payloads t).length + 1 ∧ ∃ s',
      In.recv X.K receive buf s = (R.panic, s') ∧ s'.log = s.log) ∨
    ∃ p c' buf' s', In.recv X.K receive buf s = (ok (p, c', buf'), s') ∧
      Link X (t ++ [.received p]) sc c' buf' s' := by
  rcases In.recv_outcome X.K receive buf s (by rw [h.buf]; omega) with
    ⟨e, i, g⟩ | ⟨hc, i, g⟩ | ⟨hc, p, c', buf', i, g, _, hc', hk, hb⟩
  · refine .inl ⟨?_, e, _, g, rfl⟩
    intro ha ps rest hst hc
    rcases Nat.lt_or_ge (Spec.payloads t).length ps.length with hlt | hge
    · obtain ⟨⟨qs, rfl⟩, h2⟩ := h.inp ha ps rest hst (by omega)
      rw [List.drop_left] at h2
      cases qs with
      | nil => rw [List.append_nil] at hlt; omega
      | cons q qs =>
        obtain ⟨raw, w', hp, hl, hi, h3⟩ := h2
        obtain ⟨c2, buf2, _, _, _, g2⟩ := C22_recv_framed X.K receive buf q raw w' s hp
          (by rw [h.buf]; exact hl) (by rw [h.receiveCounter]; exact hc)
          (by rw [hi, h.receiveKeys, h.receiveCounter])
        rw [g] at g2
        simp at g2
    · exact hge
  · exact .inr (.inl ⟨by rw [h.receiveCounter] at hc; omega, _, g, rfl⟩)
  refine .inr (.inr ⟨p, c', buf', _, g, ?_⟩)
  have hs : Spec.sentPayloads (t ++ [.received p]) = Spec.sentPayloads t := by
    rw [sentPayloads_append]; exact List.append_nil _
  have hr : Spec.payloads (t ++ [.received p]) = Spec.payloads t ++ [p] := by
    rw [payloads_append]; rfl
  refine ⟨by rw [h.log, List.append_assoc], h.cap, by rw [hb, h.buf], h.sendKeys,
    by rw [hk, h.receiveKeys], by rw [hs]; exact h.sendCounter,
    by rw [hc', h.receiveCounter, hr, List.length_append]; rfl, by rw [hs]; exact h.out, ?_⟩
  intro ha ps rest hst hle
  rw [hr, List.length_append, List.length_singleton] at hle
  obtain ⟨⟨qs, rfl⟩, h2⟩ := h.inp ha ps rest hst (by omega)
  rw [List.drop_left] at h2
  cases qs with
  | nil => rw [List.append_nil] at hle; omega
  | cons q qs =>
    obtain ⟨raw, w', hp, hl, hi, h3⟩ := h2
    obtain ⟨c2, buf2, _, _, _, g2⟩ := C22_recv_framed X.K receive buf q raw w' s hp
      (by rw [h.buf]; exact hl) hc (by rw [hi, h.receiveKeys, h.receiveCounter])
    rw [g] at g2
    simp only [Prod.mk.injEq, R.ok.injEq, IoSt.mk.injEq] at g2
    obtain ⟨⟨rfl, rfl, rfl⟩, rfl, _⟩ := g2
    rw [hr]
    refine ⟨⟨qs, by simp⟩, ?_⟩
    rw [show Spec.payloads t ++ p :: qs = Spec.payloads t ++ [p] ++ qs by simp, List.drop_left,
      List.length_append]
    exact h3

end

/-! ### the view -/

theorem view_append (t b : List Event) :
    Spec.view (t ++ b) = b.foldl Spec.View.next (Spec.view t) := List.foldl_append

theorem msgOf_eq {p : Bytes} {m : Message} (h : Message.parse p = ok m) :
    Spec.msgOf p = some m := by
  have hr := reads_iff.mp h
  rw [Spec.msgOf, dif_pos ⟨m, hr⟩]
  have := reads_iff.mpr (Exists.choose_spec (p := Spec.Reads p) ⟨m, hr⟩)
  rw [h] at this
  rw [← R.ok.inj this]

theorem msgOf_parse (p : Bytes) : Spec.msgOf p = match Message.parse p with
    | .ok m => some m
    | _ => none := by
  have none : (∀ m, Message.parse p ≠ ok m) → Spec.msgOf p = none := by
    intro h
    rw [Spec.msgOf, dif_neg]
    rintro ⟨m, hm⟩
    exact h m (reads_iff.mpr hm)
  cases h : Message.parse p with
  | ok m => exact msgOf_eq h
  | err e => exact none (by rw [h]; simp)
  | panic => exact none (by rw [h]; simp)

/-! the same in a form that can be evaluated, for the examples -/

def evalMsg (p : Bytes) : Option Message :=
  match Message.parse p with
  | .ok m => some m
  | _ => none

theorem msgOf_eval : Spec.msgOf = evalMsg := funext msgOf_parse

def evalNext (v : Spec.View) : Event → Spec.View
  | .received p => (evalMsg p).elim v v.receive
  | .sent p => (evalMsg p).elim v v.send
  | .proc (.spawn _ n) =>
    { v with procs := v.procs + 1, homes := Spec.set v.homes n (v.current.bind v.peers) }
  | .proc (.started n stdin _ _) =>
    v.current.elim v fun id =>
      { v with stdins := Spec.set v.stdins id (if stdin then some n else none) }
  | _ => v

theorem next_eval (v : Spec.View) (e : Event) : v.next e = evalNext v e := by
  cases e with
  | received p => simp only [Spec.View.next, evalNext, msgOf_eval]
  | sent p => simp only [Spec.View.next, evalNext, msgOf_eval]
  | proc e => cases e <;> rfl
  | _ => rfl

def evalView (t : List Event) : Spec.View := t.foldl evalNext Spec.View.empty

theorem view_eval (t : List Event) : Spec.view t = evalView t := by
  unfold Spec.view evalView
  congr 1
  exact funext fun v => funext (next_eval v)

theorem Spec.Legal.msgOf {p : Bytes} {m : Message} (hm : Spec.isReply m = false)
    (h : Spec.Legal m p) : Spec.msgOf p = some m := msgOf_eq ((Message.parse_iff hm).mpr h)

theorem msgOf_encode {m : Message} (hm : Spec.isReply m = false) (h : Spec.WF m) :
    Spec.msgOf (Spec.encode m) = some m :=
  Spec.Legal.msgOf hm ⟨h, 1, by decide, rfl⟩

@[simp] theorem set_same {α β : Type} [DecidableEq α] (f : α → β) (i : α) (v : β) :
    Spec.set f i v i = v := by simp [Spec.set]

theorem set_ne {α β : Type} [DecidableEq α] (f : α → β) {i j : α} (v : β) (h : j ≠ i) :
    Spec.set f i v j = f j := by simp [Spec.set, h]

/-- events that matter for what is read -/
def marks : Event → Option Nat
  | .proc (.started n ..) => some n
  | .proc (.stdout n []) => some n
  | .proc (.stderr n []) => some n
  | .proc (.exited n _) => some n
  | _ => none

/-- the channels and the processes agree with the log -/
structure Agrees (A : Client.Cut → Prop) (t : List Event) (st : Client.St) : Prop where
  peers : ∀ id, (Spec.view t).peers id = (st.channels.get id).map (·.peer)
  stdins : ∀ id, (Spec.view t).stdins id = (st.channels.get id).bind (·.stdin)
  procs : (Spec.view t).procs = st.procs
  bound : ∀ e ∈ t, ∀ n, marks e = some n → n < st.procs
  outs : ∀ x ∈ st.stdouts, (Spec.view t).homes x.1 = some x.2 ∧ Spec.Reading t x.1
  errs : ∀ x ∈ st.stderrs, (Spec.view t).homes x.1 = some x.2 ∧ Spec.ReadingErr t x.1
  waits : ∀ x ∈ st.waits, (Spec.view t).homes x.1 = some x.2 ∧ Spec.Watched t x.1
  outsNodup : (st.stdouts.map Prod.fst).Nodup
  errsNodup : (st.stderrs.map Prod.fst).Nodup
  waitsNodup : (st.waits.map Prod.fst).Nodup
  /-- nothing is forgotten, unless a reply is interrupted -/
  outsAll : (∀ n, ¬ A (.write n)) → ∀ n, Spec.Reading t n → ∃ ch, (n, ch) ∈ st.stdouts
  errsAll : (∀ n, ¬ A (.write n)) → ∀ n, Spec.ReadingErr t n → ∃ ch, (n, ch) ∈ st.stderrs
  waitsAll : (∀ n, ¬ A (.write n)) → ∀ n, Spec.Watched t n → ∃ ch, (n, ch) ∈ st.waits

section
variable {A : Client.Cut → Prop} {t : List Event} {st : Client.St}

theorem Agrees.init (a : Authenticated) : Agrees A [] (Client.start a) := by
  have hg : ∀ id, (Client.start a).channels.get id = none := fun id => C39_new id
  refine ⟨fun id => by rw [hg]; rfl, fun id => by rw [hg]; rfl, rfl, ?_, ?_, ?_, ?_, List.nodup_nil,
    List.nodup_nil, List.nodup_nil, ?_, ?_, ?_⟩
  · intro e he; cases he
  · intro e he; cases he
  · intro e he; cases he
  · intro e he; cases he
  · rintro _ n ⟨⟨_, _, h⟩, _⟩; cases h
  · rintro _ n ⟨⟨_, _, h⟩, _⟩; cases h
  · rintro _ n ⟨⟨_, _, _, h, _⟩, _⟩; cases h

theorem reading_quiet {b : List Event} {n : Nat} (hb : ∀ e ∈ b, marks e ≠ some n) :
    Spec.Reading (t ++ b) n ↔ Spec.Reading t n := by
  unfold Spec.Reading
  simp only [List.mem_append]
  refine ⟨?_, ?_⟩
  · rintro ⟨⟨i, e, h | h⟩, h2⟩
    · exact ⟨⟨i, e, h⟩, fun h => h2 (.inl h)⟩
    · exact absurd rfl (hb _ h)
  · rintro ⟨⟨i, e, h⟩, h2⟩
    refine ⟨⟨i, e, .inl h⟩, ?_⟩
    rintro (h' | h')
    · exact h2 h'
    · exact absurd rfl (hb _ h')

theorem readingErr_quiet {b : List Event} {n : Nat} (hb : ∀ e ∈ b, marks e ≠ some n) :
    Spec.ReadingErr (t ++ b) n ↔ Spec.ReadingErr t n := by
  unfold Spec.ReadingErr
  simp only [List.mem_append]
  refine ⟨?_, ?_⟩
  · rintro ⟨⟨i, e, h | h⟩, h2⟩
    · exact ⟨⟨i, e, h⟩, fun h => h2 (.inl h)⟩
    · exact absurd rfl (hb _ h)
  · rintro ⟨⟨i, e, h⟩, h2⟩
    refine ⟨⟨i, e, .inl h⟩, ?_⟩
    rintro (h' | h')
    · exact h2 h'
    · exact absurd rfl (hb _ h')

theorem watched_quiet {b : List Event} {n : Nat} (hb : ∀ e ∈ b, marks e ≠ some n) :
    Spec.Watched (t ++ b) n ↔ Spec.Watched t n := by
  unfold Spec.Watched
  simp only [List.mem_append]
  refine ⟨?_, ?_⟩
  · rintro ⟨⟨i, o, e, h | h, h'⟩, h2⟩
    · exact ⟨⟨i, o, e, h, h'⟩, fun s h => h2 s (.inl h)⟩
    · exact absurd rfl (hb _ h)
  · rintro ⟨⟨i, o, e, h, h'⟩, h2⟩
    refine ⟨⟨i, o, e, .inl h, h'⟩, ?_⟩
    rintro s (h' | h')
    · exact h2 s h'
    · exact absurd rfl (hb _ h')

/-- events that do not matter for what is read, and leave the processes as they are -/
theorem Agrees.quiet (h : Agrees A t st) {b : List Event} {st' : Client.St}
    (hb : ∀ e ∈ b, marks e = none)
    (hpeers : ∀ id, (Spec.view (t ++ b)).peers id = (st'.channels.get id).map (·.peer))
    (hstdins : ∀ id, (Spec.view (t ++ b)).stdins id = (st'.channels.get id).bind (·.stdin))
    (hprocs : (Spec.view (t ++ b)).procs = st'.procs) (hle : st.procs ≤ st'.procs)
    (hhomes : ∀ n, n < st.procs → (Spec.view (t ++ b)).homes n = (Spec.view t).homes n)
    (h1 : st'.stdouts = st.stdouts) (h2 : st'.stderrs = st.stderrs) (h3 : st'.waits = st.waits) :
    Agrees A (t ++ b) st' := by
  have hb' : ∀ n, ∀ e ∈ b, marks e ≠ some n := fun n e he => by rw [hb e he]; simp
  refine ⟨hpeers, hstdins, hprocs, ?_, ?_, ?_, ?_, h1 ▸ h.outsNodup, h2 ▸ h.errsNodup,
    h3 ▸ h.waitsNodup, ?_, ?_, ?_⟩
  · intro e he n hn
    rcases List.mem_append.mp he with he | he
    · exact Nat.lt_of_lt_of_le (h.bound e he n hn) hle
    · exact absurd hn (hb' n e he)
  · rw [h1]
    intro x hx
    obtain ⟨a, c⟩ := h.outs x hx
    obtain ⟨⟨i, e, hi⟩, _⟩ := id c
    rw [hhomes x.1 (h.bound _ hi _ rfl), reading_quiet (hb' _)]
    exact ⟨a, c⟩
  · rw [h2]
    intro x hx
    obtain ⟨a, c⟩ := h.errs x hx
    obtain ⟨⟨i, e, hi⟩, _⟩ := id c
    rw [hhomes x.1 (h.bound _ hi _ rfl), readingErr_quiet (hb' _)]
    exact ⟨a, c⟩
  · rw [h3]
    intro x hx
    obtain ⟨a, c⟩ := h.waits x hx
    obtain ⟨⟨i, o, e, hi, _⟩, _⟩ := id c
    rw [hhomes x.1 (h.bound _ hi _ rfl), watched_quiet (hb' _)]
    exact ⟨a, c⟩
  · intro ha n
    rw [reading_quiet (hb' _), h1]
    exact h.outsAll ha n
  · intro ha n
    rw [readingErr_quiet (hb' _), h2]
    exact h.errsAll ha n
  · intro ha n
    rw [watched_quiet (hb' _), h3]
    exact h.waitsAll ha n

end

end Nora
