import Verif.Props.Rfc
import Verif.Props.EndToEnd
import Verif.Props.Messages
import Verif.Props.Handshake
/-
Further rules of RFC 4252, RFC 4253 and RFC 4254 that the server does not follow in a session, and what it
does instead: C82-C89.
-/
namespace Nora
open R

section
variable {K : Crypto} {H : ConnHandlers} {user : Nat} {a : Authenticated} {sched : List Client.Step}
  {s s' : IoSt} {r : R Client.Stop (Client.St ⊕ Unit)}

/-- the messages that a session sends -/
def Spec.sendsIn : Message → Bool
  | .channel (.openConfirmation _) | .channel (.success _) | .channel (.failure _) | .channel (.data _)
  | .channel (.eof _) | .channel (.close _) => true
  | .channel (.request r) => r.ty = b! "exit-status" && !r.wantReply
  | _ => false

/-- C82, C83, C84, C85: in every session, whatever the schedule and the input, only these messages are
sent. -/
theorem C82_sent (hrun : Client.steps K H user (Client.start a) sched s = (r, s'))
    {t1 t2 : List Event} {p : Bytes} (hl : s'.log = s.log ++ (t1 ++ .sent p :: t2)) :
    ∃ m, Spec.msgOf p = some m ∧ Spec.Legal m p ∧ Spec.sendsIn m = true := by
  obtain ⟨m, rfl, h1, h2⟩ := C41_cause hrun hl
  refine ⟨m, msgOf_encode h2.good.1 h2.good.2, h1, ?_⟩
  cases h2 <;> rfl

theorem never_sent (hrun : Client.steps K H user (Client.start a) sched s = (r, s'))
    {t : List Event} {p : Bytes} (hl : s'.log = s.log ++ t) (hp : .sent p ∈ t) {m : Message}
    (hm : Spec.isReply m = false) (hs : Spec.sendsIn m = false) : ¬ Spec.Legal m p := by
  intro h
  obtain ⟨t1, t2, rfl⟩ := List.append_of_mem hp
  obtain ⟨m', h1, h2, h3⟩ := C82_sent hrun hl
  have h4 := (Message.parse_iff hm).mpr h
  rw [msgOf_parse, h4] at h1
  cases h1
  rw [hs] at h3
  cases h3

/-! ### C82 the window for the client's data -/

/-- what WINDOW_ADJUST adds to the window of the client for the channel with the client's number `peer` -/
noncomputable def Spec.adjusted (peer : UInt32) (t : List Event) : Nat :=
  (t.map fun e => match e with
    | .sent p => match Spec.msgOf p with
      | some (.channel (.windowAdjust c)) => if c.recipientChannel = peer then c.addBytes.toNat else 0
      | _ => 0
    | _ => 0).sum

/-- the channel `id` is not closed by the client -/
def Spec.notClosed (id : UInt32) (t : List Event) : Prop :=
  ∀ x c, .received x ∈ t → Spec.Legal (.channel (.close c)) x → c.recipientChannel ≠ id

/-- C82 in full: when the client has used up the window of a channel that is open, the server can come to
send it WINDOW_ADJUST (RFC 4254, 5.2). -/
def C82_statement : Prop :=
  ∀ (K : Crypto) (H : ConnHandlers) (user : Nat) (a : Authenticated) (sched : List Client.Step)
    (s s' : IoSt) (st : Client.St) (t1 t2 : List Event) (id : UInt32) (o : Chan.Open),
    Client.steps K H user (Client.start a) sched s = (ok (.inl st), s') →
    s'.log = s.log ++ (t1 ++ .sent (Spec.encode (Spec.confirm id o)) :: t2) → Spec.notClosed id t2 →
    (Spec.dataIn id (Spec.payloads t2)).length =
      o.windowSize.toNat + Spec.adjusted o.senderChannel t2 →
    ∃ more r2 s2 u, Client.steps K H user (Client.start a) (sched ++ more) s = (r2, s2) ∧
      s2.log = s'.log ++ u ∧ 0 < Spec.adjusted o.senderChannel u

/-- C82: WINDOW_ADJUST is never sent. -/
theorem C82_never (hrun : Client.steps K H user (Client.start a) sched s = (r, s'))
    {t : List Event} {p : Bytes} (hl : s'.log = s.log ++ t) (hp : .sent p ∈ t)
    (c : Chan.WindowAdjust) : ¬ Spec.Legal (.channel (.windowAdjust c)) p :=
  never_sent hrun hl hp rfl rfl

theorem adjusted_zero (hrun : Client.steps K H user (Client.start a) sched s = (r, s')) (peer : UInt32) :
    ∀ {t t' : List Event}, s'.log = s.log ++ (t ++ t') → Spec.adjusted peer t' = 0 := by
  intro t t'
  induction t' generalizing t with
  | nil => intro _; rfl
  | cons e t' ih =>
    intro hl
    have h := ih (t := t ++ [e]) (by rw [hl]; simp)
    simp only [Spec.adjusted, List.map_cons, List.sum_cons] at h ⊢
    rw [h, Nat.add_zero]
    cases e with
    | sent p =>
      obtain ⟨m, h1, h2, h3⟩ := C82_sent hrun hl
      simp only [h1]
      split
      · rename_i heq
        cases heq
        cases h3
      · rfl
    | _ => rfl

/-- C82, part: so a client that keeps to the window cannot send more data on a channel than the window in its
confirmation allows, which is the window that the client itself gave with OPEN. Missing: it is never
allowed more. -/
theorem C82_limit_partial (hrun : Client.steps K H user (Client.start a) sched s = (r, s'))
    {t1 t2 : List Event} {p : Bytes} {c : Chan.OpenConfirmation}
    (hl : s'.log = s.log ++ (t1 ++ .sent p :: t2)) (hp : Spec.Legal (.channel (.openConfirmation c)) p)
    (hkeeps : (Spec.dataIn c.senderChannel (Spec.payloads t2)).length ≤
      c.windowSize.toNat + Spec.adjusted c.recipientChannel t2) :
    (Spec.dataIn c.senderChannel (Spec.payloads t2)).length ≤ c.windowSize.toNat ∧
    ∃ t0 q o, t1 = t0 ++ [.received q] ∧ Spec.Legal (.channel (.open o)) q ∧
      c.recipientChannel = o.senderChannel ∧ c.windowSize = o.windowSize := by
  have h0 := adjusted_zero hrun c.recipientChannel (t := t1 ++ [.sent p]) (t' := t2) (by rw [hl]; simp)
  obtain ⟨t0, q, o, h1, h2, h3, h4, -⟩ := C40_confirmation hrun hl hp
  exact ⟨by omega, t0, q, o, h1, h2, h3, h4⟩

/-- The client opens a channel with an empty window, so its own window is empty too, for ever. -/
theorem C82_refuted : ¬ C82_statement := by
  intro hall
  obtain ⟨st, s1, h1, l1⟩ := demo_base demoIo List.length (ps := []) (by simp)
  have hpay : ∀ q, .received q ∈ (demoLog demoIo).drop 2 → q = demoP1 := by
    intro q hq
    simpa [demoLog, demoLog0] using hq
  obtain ⟨more, r2, s2, u, h2, l2, h3⟩ := hall _ _ _ _ _ _ _ _ [.received demoP0]
    ((demoLog demoIo).drop 2) 0 demoOpen h1 l1
    (by
      intro x c hx hc
      cases hpay x hx
      exact absurd (hc.unique rfl rfl (legal_encode demoExec_wf)) (by simp))
    (by
      have h0 : Spec.adjusted 5 ((demoLog demoIo).drop 2) = 0 :=
        adjusted_zero h1 5 (t := (demoLog demoIo).take 2) (by rw [l1]; rfl)
      show _ = 0 + Spec.adjusted 5 _
      rw [h0]
      show (Spec.dataIn 0 [demoP1]).length = 0
      simp only [Spec.dataIn, demoP1, List.flatMap_cons, List.flatMap_nil,
        msgOf_encode (m := .channel (.request demoExec)) rfl demoExec_wf]
      rfl)
  have := adjusted_zero h2 5 (t := demoLog demoIo) (t' := u) (by rw [l2, l1]; rfl)
  have h3 : 0 < Spec.adjusted 5 u := h3
  omega

-- a client that sends two bytes although its window is empty does not keep to it
example : (Spec.dataIn 0 [Spec.encode demoData]).length = 2 := by
  simp only [Spec.dataIn, List.flatMap_cons, List.flatMap_nil, msgOf_encode (m := demoData) rfl demo_data_wf]
  rfl

/-! ### C83 the standard error output -/

/-- C83 in full: what a process writes to its standard error output is sent as EXTENDED_DATA of the type 1
(RFC 4254, 5.2), so that it can be told from the standard output. -/
def C83_statement : Prop :=
  ∀ (K : Crypto) (H : ConnHandlers) (user : Nat) (a : Authenticated) (sched : List Client.Step)
    (s s' : IoSt) (r : R Client.Stop (Client.St ⊕ Unit)) (t1 t2 : List Event) (n : Nat) (d p : Bytes),
    Client.steps K H user (Client.start a) sched s = (r, s') →
    s'.log = s.log ++ (t1 ++ .proc (.stderr n d) :: .sent p :: t2) →
    ∃ x, Spec.Legal (.channel (.extendedData x)) p ∧ x.ty = 1 ∧ x.data = d

/-- C83: EXTENDED_DATA is never sent. -/
theorem C83_never (hrun : Client.steps K H user (Client.start a) sched s = (r, s'))
    {t : List Event} {p : Bytes} (hl : s'.log = s.log ++ t) (hp : .sent p ∈ t)
    (c : Chan.ExtendedData) : ¬ Spec.Legal (.channel (.extendedData c)) p :=
  never_sent hrun hl hp rfl rfl

/-- C83, part: it is sent at once, completely, and to the channel of the process, but as DATA. -/
theorem C83_data_partial (hrun : Client.steps K H user (Client.start a) sched s = (r, s'))
    {t1 t2 : List Event} {n : Nat} {d p : Bytes}
    (hl : s'.log = s.log ++ (t1 ++ .proc (.stderr n d) :: .sent p :: t2)) :
    ∃ peer, (Spec.view t1).homes n = some peer ∧ p = Spec.encode (Spec.dataMsg peer d) ∧ d ≠ [] := by
  have hl' : s'.log = s.log ++ ((t1 ++ [.proc (.stderr n d)]) ++ .sent p :: t2) := by rw [hl]; simp
  obtain ⟨t0, b, h1, _, h⟩ := (session_whole hrun hl').local
  generalize he : Event.sent p = e at h
  have last : ∀ {x : Event} {b0 : List Event}, b = b0 ++ [x] → x = .proc (.stderr n d) ∧ t1 = t0 ++ b0 := by
    rintro x b0 rfl
    rw [← List.append_assoc] at h1
    obtain ⟨h2, h3⟩ := List.append_inj' h1 rfl
    exact ⟨(List.cons.inj h3).1.symm, h2⟩
  cases h with
  | stderrData g1 g2 g3 g4 =>
    obtain ⟨h2, rfl⟩ := last (b0 := []) rfl
    cases h2
    rw [Event.sent.inj he, List.append_nil]
    exact ⟨_, g2, rfl, g3⟩
  | success g1 g2 g3 g4 g5 =>
    cases hs : (Spec.view t0).stdins _ with
    | none =>
      obtain ⟨h2, -⟩ := last (x := .proc (.started _ _ _ _)) (b0 := [_, _]) (by rw [hs]; rfl)
      cases h2
    | some k =>
      obtain ⟨h2, -⟩ := last (x := .proc (.stdinClosed k)) (b0 := [_, _, _]) (by rw [hs]; rfl)
      cases h2
  | confirm | failure | stdoutData | stdoutEof | exitStatus =>
    obtain ⟨h2, -⟩ := last (b0 := []) rfl
    cases h2
  | stdoutClose =>
    obtain ⟨h2, -⟩ := last (b0 := [_]) rfl
    cases h2
  | _ => cases he

/-- the same state, but for the log -/
def SameIo (s1 s2 : IoSt) : Prop :=
  s1.inp = s2.inp ∧ s1.out = s2.out ∧ s1.wcap = s2.wcap ∧ s1.rng = s2.rng

/-- a computation that does not read the log -/
def Blind {ε α : Type} (x : M ε α) : Prop :=
  ∀ s1 s2, SameIo s1 s2 → (x s1).1 = (x s2).1 ∧ SameIo (x s1).2 (x s2).2

theorem Blind.bind {ε α β : Type} {x : M ε α} {f : α → M ε β} (hx : Blind x) (hf : ∀ y, Blind (f y)) :
    Blind (x >>= f) := by
  intro s1 s2 h
  obtain ⟨h1, h2⟩ := hx s1 s2 h
  show (M.bind x f s1).1 = (M.bind x f s2).1 ∧ SameIo (M.bind x f s1).2 (M.bind x f s2).2
  unfold M.bind
  generalize x s1 = y1 at h1 h2
  generalize x s2 = y2 at h1 h2
  obtain ⟨r1, u1⟩ := y1
  obtain ⟨r2, u2⟩ := y2
  cases h1
  cases r1 with
  | ok v => exact hf v _ _ h2
  | err e => exact ⟨rfl, h2⟩
  | panic => exact ⟨rfl, h2⟩

theorem Blind.mapErr {ε ε' α : Type} {x : M ε α} (g : ε → ε') (hx : Blind x) : Blind (x.mapErr g) := by
  intro s1 s2 h
  obtain ⟨h1, h2⟩ := hx s1 s2 h
  exact ⟨congrArg (R.mapErr g) h1, h2⟩

theorem Blind.pure {ε α : Type} (v : α) : Blind (Pure.pure v : M ε α) := fun _ _ h => ⟨rfl, h⟩

theorem Blind.lift {ε α : Type} (x : R ε α) : Blind (M.lift x) := fun _ _ h => ⟨rfl, h⟩

theorem Blind.logEvent {ε : Type} (e : Event) : Blind (M.logEvent e : M ε Unit) := fun _ _ h => ⟨rfl, h⟩

theorem Blind.withRng {ε α : Type} (f : Tape → R ε (α × Tape)) : Blind (M.withRng f) := by
  rintro s1 s2 ⟨h1, h2, h3, h4⟩
  unfold M.withRng
  rw [h4]
  cases f s2.rng with
  | ok v => exact ⟨rfl, h1, h2, h3, rfl⟩
  | err e => exact ⟨rfl, h1, h2, h3, h4⟩
  | panic => exact ⟨rfl, h1, h2, h3, h4⟩

theorem Blind.writeAll (d : Bytes) : Blind (M.writeAll d) := by
  rintro s1 s2 ⟨h1, h2, h3, h4⟩
  unfold M.writeAll
  rw [h3]
  cases hw : s2.wcap with
  | none => exact ⟨rfl, h1, by simp only [h2], rfl, h4⟩
  | some n =>
    simp only
    split
    · exact ⟨rfl, h1, by simp only [h2], rfl, h4⟩
    · exact ⟨rfl, h1, by simp only [h2], rfl, h4⟩

/-- what is sent does not depend on what was logged -/
theorem Blind.send (K : Crypto) (st : Client.St) (m : Message) : Blind (Client.send K .none st m) := by
  refine .bind (.mapErr _ ?_) fun _ => .pure _
  refine .bind (.withRng _) fun _ => .bind (.lift _) fun _ => .bind (.lift _) fun _ =>
    .bind (.lift _) fun _ => .bind (.logEvent _) fun _ => .bind (.mapErr _ (.writeAll _)) fun _ => .pure _

/-- C83: so both outputs look the same to the client: if two processes (or the two outputs of one) write the
same to the same channel, the server writes the same bytes and is in the same state, in every state. -/
theorem C83_alike (K : Crypto) (st : Client.St) (s : IoSt) {i j n k : Nat} {ch : UInt32} {d : Bytes}
    (hi : st.stdouts[i]? = some (n, ch)) (hj : st.stderrs[j]? = some (k, ch)) (hd : d ≠ []) :
    (Client.event K st (.stdout i (some d)) s).1 = (Client.event K st (.stderr j (some d)) s).1 ∧
    (Client.event K st (.stdout i (some d)) s).2.out = (Client.event K st (.stderr j (some d)) s).2.out := by
  have hlen : (d.take 256).length > 0 := by
    have := List.length_pos_iff.mpr hd
    rw [List.length_take]
    omega
  simp only [Client.event, hi, hj]
  rw [M.bind_ok (M.logEvent_run _ _), M.bind_ok (M.logEvent_run _ _), if_pos hlen, if_pos hlen]
  obtain ⟨h1, -, h2, -⟩ := Blind.send K st (.channel (.data ⟨ch, d.take 256⟩))
    { s with log := s.log ++ [.proc (.stdout n (d.take 256))] }
    { s with log := s.log ++ [.proc (.stderr k (d.take 256))] } ⟨rfl, rfl, rfl, rfl⟩
  exact ⟨h1, h2⟩

/-- streams for input and both outputs -/
def errIo : IoSet := ⟨true, true, true⟩

theorem C83_refuted : ¬ C83_statement := by
  intro hall
  obtain ⟨st, s1, h1, l1⟩ := demo_base errIo List.length (ps := []) (by simp)
  obtain ⟨e2, m2, st2, s2, h2, l2⟩ := demo_out h1 l1 smooth_start ⟨by decide, by decide⟩
    (.stderr (n := 0) (peer := 5) (d := b! "x")
      ⟨⟨true, true, by simp [demoLog, errIo]⟩, by simp [demoLog, demoLog0]⟩
      (by rw [demo_view]; rfl) (by decide) (by decide)) rfl
  obtain ⟨x, hx, -⟩ := hall _ _ _ _ _ _ _ _ (demoLog errIo) [] 0 (b! "x") _ h2 l2
  exact C83_never (t := demoLog errIo ++ [.proc (.stderr 0 (b! "x")),
    .sent (Spec.encode (Spec.dataMsg 5 (b! "x")))]) h2 l2 (by simp) x hx

/-! ### C84 unknown messages -/

/-- C84 in full: a message with a number that is not known is answered with UNIMPLEMENTED and is otherwise
ignored (RFC 4253, 11.4), so the server does not panic. -/
def C84_statement : Prop :=
  ∀ (K : Crypto) (H : ConnHandlers) (user : Nat) (a : Authenticated) (sched : List Client.Step)
    (s s' : IoSt) (r : R Client.Stop (Client.St ⊕ Unit)) (t1 t2 : List Event) (n : Byte) (rest : Bytes),
    Client.steps K H user (Client.start a) sched s = (r, s') →
    s'.log = s.log ++ (t1 ++ .received (n :: rest) :: t2) → n.toNat ∉ assigned → r ≠ R.panic

/-- C84: UNIMPLEMENTED is never sent. -/
theorem C84_never (hrun : Client.steps K H user (Client.start a) sched s = (r, s'))
    {t : List Event} {p : Bytes} (hl : s'.log = s.log ++ t) (hp : .sent p ∈ t)
    (u : Msg.Unimplemented) : ¬ Spec.Legal (.unimplemented u) p :=
  never_sent hrun hl hp rfl rfl

/-- C84: a message with a number that is not known ends the session with a panic, whatever its content is,
in every state. -/
theorem C84_unknown (hrun : Client.steps K H user (Client.start a) sched s = (r, s'))
    {t1 t2 : List Event} {n : Byte} {rest : Bytes}
    (hl : s'.log = s.log ++ (t1 ++ .received (n :: rest) :: t2)) (hn : n.toNat ∉ assigned) :
    t2 = [] ∧ r = R.panic :=
  C50_fatal hrun hl (.unparsable fun m h => by have h := reads_iff.mpr h; rw [C06_unassigned n rest hn] at h; cases h)

/-- C84, part: of the messages that any side may send at any time (RFC 4253, 11) DISCONNECT and IGNORE are
understood: after IGNORE nothing happens until the next event, DISCONNECT ends the session. Missing: DEBUG and
UNIMPLEMENTED, which may be ignored, end it with a panic too. -/
theorem C84_transport_partial (hrun : Client.steps K H user (Client.start a) sched s = (r, s'))
    {t1 t2 : List Event} {q : Bytes} (hl : s'.log = s.log ++ (t1 ++ .received q :: t2)) :
    (∀ i, Spec.Legal (.ignore i) q → ∀ p u, t2 ≠ .sent p :: u) ∧
    (∀ d, Spec.Legal (.disconnect d) q → t2 = [] ∧ r = ok (.inr ())) ∧
    (∀ d, Spec.Legal (.debug d) q → t2 = [] ∧ r = R.panic) ∧
    (∀ u, Spec.Legal (.unimplemented u) q → t2 = [] ∧ r = R.panic) := by
  refine ⟨?_, ?_, ?_, ?_⟩
  · rintro i hi p u rfl
    have hl' : s'.log = s.log ++ ((t1 ++ [.received q]) ++ .sent p :: u) := by rw [hl]; simp
    obtain ⟨m, rfl, -, h⟩ := C41_cause hrun hl'
    have last : ∀ {t0 : List Event} {e : Event}, t1 ++ [.received q] = t0 ++ [e] → e = .received q :=
      fun h => (List.cons.inj (List.append_inj' h rfl).2).1.symm
    have ne : ∀ {m : Message}, Spec.isReply m = false → Spec.Legal m q → m = .ignore i :=
      fun h1 h2 => h2.unique h1 rfl hi
    cases h with
    | confirm h1 h2 =>
      cases last h1
      cases ne rfl h2
    | failure h1 h2 =>
      cases last h1
      cases ne rfl h2
    | success h1 h2 h3 =>
      replace h2 := started_procs h2
      rename_i t0 q' v _ _ _ _ _ _ _ _ _ _ _
      induction v using snoc_induction with
      | h0 =>
        cases last h1
        cases ne rfl h3
      | h1 v e =>
        obtain ⟨f, rfl⟩ := h2 e (by simp)
        have := last (t0 := t0 ++ .received q' :: v) (e := .proc f) (by rw [h1]; simp)
        cases this
    | stdout h1 | stderr h1 | eof h1 | exit h1 => cases last h1
    | @close t0 n peer h1 =>
      have := last (t0 := t0 ++ [.proc (.stdout n [])]) (e := .sent (Spec.encode (Spec.eofMsg peer)))
        (by rw [h1]; simp)
      cases this
  · intro d hd
    exact C49_disconnect hrun hl hd
  · intro d hd
    exact C50_fatal hrun hl (.unsupported ⟨rfl, hd⟩ rfl)
  · intro d hd
    exact C50_fatal hrun hl (.unsupported ⟨rfl, hd⟩ rfl)

/-- a global request that only asks for an answer, as clients send to keep a connection alive -/
def keepAlive : Bytes := 80 :: (Spec.str (b! "keepalive@openssh.com") ++ [1])

theorem C84_refuted : ¬ C84_statement := by
  intro hall
  have hps : ∀ p ∈ [keepAlive], p.length ≤ 30000 := by decide
  obtain ⟨st, s1, h1, l1⟩ := demo_base demoIo List.length hps
  obtain ⟨s2, h2, l2⟩ := C50_always (t := demoLog demoIo) h1 l1 smooth_start ⟨by decide, by decide⟩
    (demo_stream hps) rfl (.unparsable fun m h => by
      have h := reads_iff.mpr h; rw [show keepAlive = 80 :: _ from rfl, C06_unassigned 80 _ (by decide)] at h; cases h)
  exact hall _ _ _ _ _ _ _ _ (demoLog demoIo) [] 80 _ h2 l2 (by decide) rfl

/-! ### C85 new keys -/

/-- C85 in full: after the authentication the client can ask for another key exchange with KEXINIT at any time
(RFC 4253, 9), so the server does not panic. -/
def C85_statement : Prop :=
  ∀ (K : Crypto) (H : ConnHandlers) (user : Nat) (a : Authenticated) (sched : List Client.Step)
    (s s' : IoSt) (r : R Client.Stop (Client.St ⊕ Unit)) (t1 t2 : List Event) (q : Bytes) (k : Kex.KexInit),
    Client.steps K H user (Client.start a) sched s = (r, s') →
    s'.log = s.log ++ (t1 ++ .received q :: t2) → Spec.Legal (.kexInit k) q → r ≠ R.panic

/-- C85: a session never sends KEXINIT or NEWKEYS, so the server does not ask for another key exchange, whatever
the amount of data is. -/
theorem C85_never (hrun : Client.steps K H user (Client.start a) sched s = (r, s'))
    {t : List Event} {p : Bytes} (hl : s'.log = s.log ++ t) (hp : .sent p ∈ t) :
    (∀ k, ¬ Spec.Legal (.kexInit k) p) ∧ ¬ Spec.Legal .newKeys p :=
  ⟨fun _ => never_sent hrun hl hp rfl rfl, never_sent hrun hl hp rfl rfl⟩

/-- C85: KEXINIT ends a session with a panic, in every state; so do the other messages of a key exchange. -/
theorem C85_fatal (hrun : Client.steps K H user (Client.start a) sched s = (r, s'))
    {t1 t2 : List Event} {q : Bytes} (hl : s'.log = s.log ++ (t1 ++ .received q :: t2))
    (hq : (∃ k, Spec.Legal (.kexInit k) q) ∨ (∃ e, Spec.Legal (.kexEcdhInit e) q) ∨
      Spec.Legal .newKeys q) : t2 = [] ∧ r = R.panic := by
  rcases hq with ⟨k, h⟩ | ⟨k, h⟩ | h <;>
    exact C50_fatal hrun hl (.unsupported ⟨rfl, h⟩ rfl)

/-- C85, part: the keys of a session are those of its start, for both directions. Missing: they are never
replaced, as they should be at times. -/
theorem C85_keys_partial {st : Client.St}
    (hrun : Client.steps K H user (Client.start a) sched s = (ok (.inl st), s'))
    {t : List Event} (hl : s'.log = s.log ++ t) :
    Spec.keysOf st.send = Spec.keysOf a.send ∧ Spec.keysOf st.receive = Spec.keysOf a.receive := by
  obtain ⟨_, hg⟩ := good_of hrun hl
  exact ⟨hg.link.sendKeys, hg.link.receiveKeys⟩

/-- The client asks for another key exchange. -/
theorem C85_refuted : ¬ C85_statement := by
  intro hall
  have hw := guess_WF false
  generalize hk : ({ guessKexInit with firstKexPacketFollows := false } : Kex.KexInit) = k at hw
  have hps : ∀ p ∈ [Spec.encode (.kexInit k)], p.length ≤ 30000 := by subst hk; decide +kernel
  obtain ⟨st, s1, h1, l1⟩ := demo_base demoIo List.length hps
  obtain ⟨s2, h2, l2⟩ := C50_always (t := demoLog demoIo) h1 l1 smooth_start ⟨by decide, by decide⟩
    (demo_stream hps) rfl (.unsupported ⟨rfl, legal_encode hw⟩ rfl)
  exact hall _ _ _ _ _ _ _ _ (demoLog demoIo) [] _ _ h2 l2 (legal_encode hw) rfl

-- the keys after the demo session
example : ∃ st s', Client.steps .flat (demoHandlers demoIo List.length) 1000 (Client.start demoAuth)
      [.message, .message] (demoState []) = (ok (.inl st), s') ∧
    Spec.keysOf st.send = Spec.keysOf demoAuth.send := by
  obtain ⟨st, s1, h1, l1⟩ := demo_base demoIo List.length (ps := []) (by simp)
  exact ⟨st, s1, h1, (C85_keys_partial h1 (t := demoLog demoIo) l1).1⟩

/-! ### C86 authentication requests after SUCCESS -/

/-- C86 in full: further authentication requests after SUCCESS are ignored silently (RFC 4252, 5.1), so the
server does not panic. -/
def C86_statement : Prop :=
  ∀ (K : Crypto) (H : ConnHandlers) (user : Nat) (a : Authenticated) (sched : List Client.Step)
    (s s' : IoSt) (r : R Client.Stop (Client.St ⊕ Unit)) (t1 t2 : List Event) (q : Bytes) (u : UserAuth),
    Client.steps K H user (Client.start a) sched s = (r, s') →
    s'.log = s.log ++ (t1 ++ .received q :: t2) → Spec.Legal (.userAuth u) q → r ≠ R.panic

/-- C86: each message of the authentication protocol ends a session with a panic, and so does a request for a
service. -/
theorem C86_fatal (hrun : Client.steps K H user (Client.start a) sched s = (r, s'))
    {t1 t2 : List Event} {q : Bytes} (hl : s'.log = s.log ++ (t1 ++ .received q :: t2))
    (hq : (∃ u, Spec.Legal (.userAuth u) q) ∨ ∃ v, Spec.Legal (.serviceRequest v) q) :
    t2 = [] ∧ r = R.panic := by
  rcases hq with ⟨k, h⟩ | ⟨k, h⟩ <;>
    exact C50_fatal hrun hl (.unsupported ⟨rfl, h⟩ rfl)

/-- C86, part: they have no other effect: in a session no handler of the authentication is called. -/
theorem C86_handlers_partial (hrun : Client.steps K H user (Client.start a) sched s = (r, s'))
    {t : List Event} (hl : s'.log = s.log ++ t) :
    (∀ name service arg res, .auth name service arg res ∉ t) ∧
    (∀ name service alg key b, .probe name service alg key b ∉ t) := by
  constructor
  · intro name service arg res h
    obtain ⟨t1, t2, rfl⟩ := List.append_of_mem h
    obtain ⟨t0, b, -, -, h⟩ := (session_whole hrun hl).local
    cases h
  · intro name service alg key b h
    obtain ⟨t1, t2, rfl⟩ := List.append_of_mem h
    obtain ⟨t0, b, -, -, h⟩ := (session_whole hrun hl).local
    cases h

/-- The client repeats a request without credentials. -/
theorem C86_refuted : ¬ C86_statement := by
  intro hall
  have hps : ∀ p ∈ [tryNone], p.length ≤ 30000 := by decide
  have hl : Spec.Legal (Spec.request (b! "u") (b! "ssh-connection") .none) tryNone :=
    legal_encode ⟨by decide, by decide, trivial⟩
  obtain ⟨st, s1, h1, l1⟩ := demo_base demoIo List.length hps
  obtain ⟨s2, h2, l2⟩ := C50_always (t := demoLog demoIo) h1 l1 smooth_start ⟨by decide, by decide⟩
    (demo_stream hps) rfl (.unsupported ⟨rfl, hl⟩ rfl)
  exact hall _ _ _ _ _ _ _ _ (demoLog demoIo) [] _ _ h2 l2 hl rfl

/-! ### C87 the number of channels -/

/-- C87 in full: there is a limit, less than 10^9, for the number of channels that are open at the same time
(RFC 4254, 5.1: the server can decline with a shortage of resources). -/
def C87_statement : Prop :=
  ∃ limit < 10 ^ 9, ∀ (K : Crypto) (H : ConnHandlers) (user : Nat) (a : Authenticated)
    (sched : List Client.Step) (s s' : IoSt) (st : Client.St) (t : List Event) (ids : List UInt32),
    Client.steps K H user (Client.start a) sched s = (ok (.inl st), s') → s'.log = s.log ++ t →
    ids.Nodup → (∀ id ∈ ids, (Spec.view t).peers id ≠ none) → ids.length ≤ limit

/-- the number of OPEN messages received -/
noncomputable def Spec.opens (t : List Event) : Nat :=
  t.countP fun e => match e with
    | .received p => match Spec.msgOf p with
      | some (.channel (.open _)) => true
      | _ => false
    | _ => false

/-- the number of confirmations sent -/
noncomputable def Spec.confirms (t : List Event) : Nat :=
  t.countP fun e => match e with
    | .sent p => match Spec.msgOf p with
      | some (.channel (.openConfirmation _)) => true
      | _ => false
    | _ => false

theorem opens_append (t u : List Event) : Spec.opens (t ++ u) = Spec.opens t + Spec.opens u :=
  List.countP_append

theorem confirms_append (t u : List Event) : Spec.confirms (t ++ u) = Spec.confirms t + Spec.confirms u :=
  List.countP_append

/-- each confirmation follows its own OPEN -/
theorem confirms_le (hrun : Client.steps K H user (Client.start a) sched s = (r, s')) :
    ∀ {t t' : List Event}, s'.log = s.log ++ (t ++ t') →
    Spec.confirms t ≤ Spec.opens t ∧
    ∀ t0 q o, t = t0 ++ [.received q] → Spec.Legal (.channel (.open o)) q →
      Spec.confirms t + 1 ≤ Spec.opens t := by
  intro t
  induction t using snoc_induction with
  | h0 => exact fun _ => ⟨Nat.le_refl _, fun t0 q o h => by simp at h⟩
  | h1 t e ih =>
    intro t' hl
    have hl' : s'.log = s.log ++ (t ++ e :: t') := by rw [hl]; simp
    obtain ⟨h1, h2⟩ := ih hl'
    rw [confirms_append, opens_append]
    refine ⟨?_, ?_⟩
    · cases e with
      | sent p =>
        obtain ⟨m, h3, h4, h5⟩ := C82_sent hrun hl'
        by_cases hm : ∃ c, m = .channel (.openConfirmation c)
        · obtain ⟨c, rfl⟩ := hm
          obtain ⟨t0, q, o, h6, h7, -⟩ := C40_confirmation hrun hl' h4
          have := h2 t0 q o h6 h7
          have h8 : Spec.confirms [.sent p] ≤ 1 := List.countP_le_length
          omega
        · have : Spec.confirms [.sent p] = 0 := by
            simp only [Spec.confirms, List.countP_cons, List.countP_nil, h3]
            split
            · exact absurd ⟨_, Option.some.inj ‹_›⟩ hm
            · rfl
          omega
      | received p => have : Spec.confirms [.received p] = 0 := rfl; omega
      | auth n sv ar re => have : Spec.confirms [.auth n sv ar re] = 0 := rfl; omega
      | probe n sv al ke b => have : Spec.confirms [.probe n sv al ke b] = 0 := rfl; omega
      | proc e => have : Spec.confirms [.proc e] = 0 := rfl; omega
    · intro t0 q o h3 h4
      obtain ⟨rfl, h5⟩ := List.append_inj' h3 rfl
      cases h5
      have : Spec.opens [.received q] = 1 := by
        simp only [Spec.opens, List.countP_cons, List.countP_nil, h4.msgOf rfl]
        rfl
      have : Spec.confirms [.received q] = 0 := rfl
      omega

theorem open_le_confirms : ∀ (t : List Event) (ids : List UInt32), ids.Nodup →
    (∀ id ∈ ids, (Spec.view t).peers id ≠ none) → ids.length ≤ Spec.confirms t := by
  intro t
  induction t using snoc_induction with
  | h0 =>
    intro ids _ h
    cases ids with
    | nil => exact Nat.le_refl _
    | cons id ids => exact absurd rfl (h id (List.mem_cons_self ..))
  | h1 t e ih =>
    intro ids hn h
    rw [confirms_append]
    simp only [view_snoc] at h
    have keep : (∀ id, ((Spec.view t).next e).peers id ≠ none → (Spec.view t).peers id ≠ none) →
        ids.length ≤ Spec.confirms t + Spec.confirms [e] :=
      fun hk => Nat.le_trans (ih ids hn fun id hid => hk id (h id hid)) (Nat.le_add_right ..)
    cases e with
    | received p =>
      refine keep fun id hid => ?_
      simp only [Spec.View.next] at hid
      cases hm : Spec.msgOf p with
      | none => rw [hm] at hid; exact hid
      | some m =>
        rw [hm, Option.elim] at hid
        unfold Spec.View.receive at hid
        split at hid
        · simp only [Spec.set] at hid
          split at hid
          · exact absurd rfl hid
          · exact hid
        all_goals exact hid
    | sent p =>
      simp only [Spec.View.next] at h keep
      cases hm : Spec.msgOf p with
      | none => simp only [hm, Option.elim] at keep; exact keep fun _ h => h
      | some m =>
        simp only [hm, Option.elim] at h keep
        by_cases hc : ∃ c, m = .channel (.openConfirmation c)
        · obtain ⟨c, rfl⟩ := hc
          have h1 : Spec.confirms [.sent p] = 1 := by
            simp only [Spec.confirms, List.countP_cons, List.countP_nil, hm]
            rfl
          have h2 := ih (ids.erase c.senderChannel) (hn.erase _) (by
            intro id hid
            obtain ⟨g1, g2⟩ := (hn.mem_erase_iff).mp hid
            have g3 := h id g2
            simp only [Spec.View.send, Spec.set] at g3
            rw [if_neg g1] at g3
            exact g3)
          rw [List.length_erase] at h2
          split at h2 <;> omega
        · refine keep fun id hid => ?_
          unfold Spec.View.send at hid
          split at hid
          · exact absurd ⟨_, rfl⟩ hc
          · exact hid
    | auth | probe => exact keep fun _ h => h
    | proc f =>
      refine keep fun id hid => ?_
      cases f with
      | started n i o e =>
        simp only [Spec.View.next] at hid
        cases hc : (Spec.view t).current with
        | none => rw [hc] at hid; exact hid
        | some id' => rw [hc] at hid; exact hid
      | _ => exact hid

/-- C87, part: each channel that is open costs the client a packet of its own. -/
theorem C87_cost_partial (hrun : Client.steps K H user (Client.start a) sched s = (r, s'))
    {t : List Event} (hl : s'.log = s.log ++ t) {ids : List UInt32} (hn : ids.Nodup)
    (hopen : ∀ id ∈ ids, (Spec.view t).peers id ≠ none) : ids.length ≤ Spec.opens t :=
  Nat.le_trans (open_le_confirms t ids hn hopen)
    (confirms_le hrun (t' := []) (by rw [hl, List.append_nil])).1

theorem length_of_all : ∀ (n : Nat) (l : List Nat), (∀ x < n, x ∈ l) → n ≤ l.length := by
  intro n
  induction n with
  | zero => exact fun _ _ => Nat.zero_le _
  | succ n ih =>
    intro l h
    have h1 := h n (Nat.lt_succ_self n)
    have h2 := ih (l.erase n) fun x hx =>
      (List.mem_erase_of_ne (by omega)).mpr (h x (by omega))
    have h3 := List.length_pos_of_mem h1
    rw [List.length_erase, if_pos h1] at h2
    omega

/-- a number that is not in a list -/
theorem exists_other {ids : List UInt32} (h : ids.length < 2 ^ 32) : ∃ id, id ∉ ids := by
  refine Classical.byContradiction fun hc => ?_
  have := length_of_all (2 ^ 32) (ids.map (·.toNat)) fun x hx => by
    refine List.mem_map.mpr ⟨UInt32.ofNat x, ?_, ?_⟩
    · exact Classical.byContradiction fun h => hc ⟨_, h⟩
    · simp only [UInt32.toNat_ofNat']
      exact Nat.mod_eq_of_lt hx
  rw [List.length_map] at this
  omega

/-- a connection on which the client only opens channels -/
def manyState (n : Nat) : IoSt where
  inp := conversation 5 (List.replicate n demoP0)
  out := []
  wcap := none
  rng := fun _ => 0
  log := []

theorem many_stream (n : Nat) :
    Spec.Arrive .flat (Spec.keysOf demoAuth.receive) demoAuth.receive.counter.toNat
      (List.replicate n demoP0) (manyState n).inp [] := by
  have := conversation_stream [] (List.replicate n demoP0) 5 (by
    intro p hp
    rw [(List.mem_replicate.mp hp).2]
    decide)
  rw [List.append_nil] at this
  exact this

/-- C87: for every number up to 10^9 there is a session with that many open channels. -/
theorem C87_any (n : Nat) (hn : n ≤ 10 ^ 9) : ∀ k, k ≤ n → ∃ sched st s' t ids,
    Client.steps .flat (demoHandlers demoIo List.length) 1000 (Client.start demoAuth) sched (manyState n) =
      (ok (.inl st), s') ∧ s'.log = t ∧ Spec.Smooth sched ∧
    Spec.payloads t = List.replicate k demoP0 ∧ (Spec.sentPayloads t).length = k ∧
    (ids : List UInt32).Nodup ∧ ids.length = k ∧
    ∀ id, id ∈ ids ↔ (Spec.view t).peers id ≠ none := by
  intro k
  induction k with
  | zero =>
    intro _
    exact ⟨[], _, manyState n, [], [], rfl, rfl, (fun _ _ h => by cases h), rfl, rfl, List.nodup_nil, rfl,
      fun id => by simp [Spec.view, Spec.View.empty]⟩
  | succ k ih =>
    intro hk
    obtain ⟨sched, st, s', t, ids, h1, h2, h3, h4, h5, h6, h7, h8⟩ := ih (by omega)
    have hfree : ∃ id, (Spec.view t).peers id = none := by
      obtain ⟨id, hid⟩ := exists_other (ids := ids) (by omega)
      refine ⟨id, Classical.byContradiction fun h => hid ((h8 id).mpr h)⟩
    rcases exec_message h1 (s := manyState n) h2 h3 rfl
      ⟨by rw [h5]; show 4 + k + 2 < 2 ^ 64; omega,
        by rw [h4, List.length_replicate]; show 5 + k + 1 < 2 ^ 64; omega⟩
      (many_stream n) (q := demoP0)
      (by rw [h4, List.length_replicate, List.getElem?_replicate, if_pos (by omega)])
      (fun hf => by
        cases FatalPacket.to hf rfl (legal_encode demoOpen_wf) with
        | unsupported h => cases h
        | full h => obtain ⟨id, hid⟩ := hfree; exact h id hid)
      (fun ty => ⟨demoIo, rfl⟩) (fun n d => ⟨_, rfl⟩) with
      ⟨st2, s2, b, g1, g2, g3⟩ | ⟨d, _, g, _⟩
    · have g3 := Reaction.to g3 rfl (legal_encode demoOpen_wf)
      cases g3 with
      | opened hid =>
        rename_i id
        have hv : Spec.view (t ++ [.received demoP0, .sent (Spec.encode (Spec.confirm id demoOpen))]) =
            { Spec.view t with
              peers := Spec.set (Spec.view t).peers id (some 5)
              stdins := Spec.set (Spec.view t).stdins id none } := by
          rw [view_append]
          simp only [List.foldl_cons, List.foldl_nil, Spec.View.next, demoP0,
            msgOf_encode (m := .channel (.open demoOpen)) rfl demoOpen_wf,
            msgOf_encode (m := Spec.confirm id demoOpen) rfl trivial, Option.elim]
          rfl
        refine ⟨sched ++ [.message], st2, s2,
          t ++ [.received demoP0, .sent (Spec.encode (Spec.confirm id demoOpen))], id :: ids, g1, g2, ?_, ?_, ?_, ?_, ?_, ?_⟩
        · intro cut e hm
          rcases List.mem_append.mp hm with hm | hm
          · exact h3 cut e hm
          · simp at hm
        · rw [payloads_append, h4, List.replicate_succ']
          rfl
        · rw [sentPayloads_append, List.length_append, h5]
          rfl
        · refine List.nodup_cons.mpr ⟨fun h => ?_, h6⟩
          exact (h8 id).mp h hid.1
        · rw [List.length_cons, h7]
        · intro x
          rw [hv, List.mem_cons, h8]
          simp only [Spec.set]
          split
          · simp [*]
          · simp [*]
    · exact absurd (g.unique rfl rfl (legal_encode demoOpen_wf)) (by simp)

theorem C87_refuted : ¬ C87_statement := by
  rintro ⟨limit, hlim, hall⟩
  obtain ⟨sched, st, s', t, ids, h1, h2, -, -, -, h3, h4, h5⟩ :=
    C87_any (limit + 1) (by omega) (limit + 1) (Nat.le_refl _)
  have := hall _ _ _ _ _ _ _ _ t ids h1 h2 h3 fun id hid => (h5 id).mp hid
  omega

/-! ### C88 channel numbers that are used again -/

/-- the client uses a number again for a new channel only when both sides have closed the last one with this
number (RFC 4254, 5.3) -/
def Spec.ReusesClosed (t : List Event) : Prop :=
  ∀ u v w id id' o o', t = u ++ .sent (Spec.encode (Spec.confirm id o)) ::
      (v ++ .sent (Spec.encode (Spec.confirm id' o')) :: w) → o'.senderChannel = o.senderChannel →
    .sent (Spec.encode (Spec.closeMsg o.senderChannel)) ∈ v ∧
    .received (Spec.encode (Spec.closeMsg id)) ∈ v

/-- C88 in full: the data sent on a channel was written by a process that was started since the channel was
opened, if the client uses a number again only after CLOSE was sent and received. -/
def C88_statement : Prop :=
  ∀ (K : Crypto) (H : ConnHandlers) (user : Nat) (a : Authenticated) (sched : List Client.Step)
    (s s' : IoSt) (r : R Client.Stop (Client.St ⊕ Unit)) (t1 t2 t3 : List Event) (id : UInt32)
    (o : Chan.Open) (n : Nat) (d p : Bytes) (e : Event),
    Client.steps K H user (Client.start a) sched s = (r, s') →
    s'.log = s.log ++ (t1 ++ .sent (Spec.encode (Spec.confirm id o)) :: (t2 ++ e :: .sent p :: t3)) →
    Spec.ReusesClosed (t1 ++ .sent (Spec.encode (Spec.confirm id o)) :: (t2 ++ e :: .sent p :: t3)) →
    e = .proc (.stdout n d) ∨ e = .proc (.stderr n d) →
    Spec.Legal (Spec.dataMsg o.senderChannel d) p → ∃ ty, .proc (.spawn ty n) ∈ t2

/-- C88, part: the same, if the client never uses a number twice in a session. Missing: a number that is used
again, because the server goes on sending after CLOSE (see C46). -/
theorem C88_once_partial (hrun : Client.steps K H user (Client.start a) sched s = (r, s'))
    {t1 t2 t3 : List Event} {id : UInt32} {o : Chan.Open} {n : Nat} {d p : Bytes} {e : Event}
    (hl : s'.log = s.log ++ (t1 ++ .sent (Spec.encode (Spec.confirm id o)) :: (t2 ++ e :: .sent p :: t3)))
    (hone : ∀ id' o', .sent (Spec.encode (Spec.confirm id' o')) ∈ t1 ++ t2 →
      o'.senderChannel ≠ o.senderChannel)
    (he : e = .proc (.stdout n d) ∨ e = .proc (.stderr n d))
    (hp : Spec.Legal (Spec.dataMsg o.senderChannel d) p) : ∃ ty, .proc (.spawn ty n) ∈ t2 := by
  have hl' : s'.log = s.log ++ ((t1 ++ .sent (Spec.encode (Spec.confirm id o)) :: (t2 ++ [e])) ++
      .sent p :: t3) := by rw [hl]; simp
  -- the process belongs to this number
  have hhome : (Spec.view (t1 ++ .sent (Spec.encode (Spec.confirm id o)) :: t2)).homes n =
      some o.senderChannel := by
    have h := cause_of hrun rfl hl' hp
    generalize hm : Spec.dataMsg o.senderChannel d = m at h
    have last : ∀ {t0 : List Event} {f : Event},
        t1 ++ .sent (Spec.encode (Spec.confirm id o)) :: (t2 ++ [e]) = t0 ++ [f] →
        f = e ∧ t0 = t1 ++ .sent (Spec.encode (Spec.confirm id o)) :: t2 := by
      intro t0 f h
      rw [← List.cons_append, ← List.append_assoc] at h
      obtain ⟨h1, h2⟩ := List.append_inj' h rfl
      exact ⟨(List.cons.inj h2).1.symm, h1.symm⟩
    cases h with
    | stdout h1 h2 h3 h4 =>
      obtain ⟨h5, rfl⟩ := last h1
      cases hm
      rcases he with rfl | rfl
      · cases h5; exact h4
      · cases h5
    | stderr h1 h2 h3 h4 =>
      obtain ⟨h5, rfl⟩ := last h1
      cases hm
      rcases he with rfl | rfl
      · cases h5
      · cases h5; exact h4
    | _ => cases hm
  obtain ⟨t0, q, req, ty, t5, h1, h2, h3⟩ := C41_home hrun
    (t' := e :: .sent p :: t3) (by rw [hl]; simp) hhome
  -- its channel was opened with this number, so by the only confirmation for it
  obtain ⟨u0, q', o', u2, g1, g2, g3, -⟩ := C41_peer hrun
    (t' := .received q :: .proc (.spawn ty n) :: t5 ++ e :: .sent p :: t3) (by
      rw [hl]
      have := congrArg (· ++ e :: .sent p :: t3) h1
      simpa using this) h3
  refine ⟨ty, ?_⟩
  rw [g1] at h1
  have hsplit : t1 ++ .sent (Spec.encode (Spec.confirm id o)) :: t2 =
      (u0 ++ [.received q']) ++ .sent (Spec.encode (Spec.confirm req.recipientChannel o')) ::
        (u2 ++ .received q :: .proc (.spawn ty n) :: t5) := by rw [h1]; simp
  rcases List.append_eq_append_iff.mp hsplit with ⟨x, k1, k2⟩ | ⟨x, k1, k2⟩
  · cases x with
    | nil =>
      obtain ⟨-, rfl⟩ := List.cons.inj k2
      simp
    | cons y x =>
      obtain ⟨-, rfl⟩ := List.cons.inj k2
      exact absurd g3 (hone req.recipientChannel o' (by simp))
  · cases x with
    | nil =>
      obtain ⟨-, rfl⟩ := List.cons.inj k2
      simp
    | cons y x =>
      obtain ⟨rfl, -⟩ := List.cons.inj k2
      exact absurd g3 (hone req.recipientChannel o' (by rw [k1]; simp))

/-- the second OPEN with the same number -/
theorem view_open_again {t : List Event} {id : UInt32} :
    (Spec.view (t ++ .received demoP0 :: [.sent (Spec.encode (Spec.confirm id demoOpen))])).homes =
      (Spec.view t).homes := by
  rw [view_append]
  simp only [List.foldl_cons, List.foldl_nil, Spec.View.next, demoP0,
    msgOf_encode (m := .channel (.open demoOpen)) rfl demoOpen_wf,
    msgOf_encode (m := Spec.confirm id demoOpen) rfl trivial, Option.elim]
  rfl

/-- the events between the two confirmations in the session below -/
def reuseGap : List Event :=
  (demoLog errIo).drop 2 ++ [.proc (.stdout 0 []), .sent (Spec.encode (Spec.eofMsg 5)),
    .sent (Spec.encode (Spec.closeMsg 5))] ++
  [.received (Spec.encode (Spec.closeMsg 0)), .proc (.stdinClosed 0)] ++ [.received demoP0]

/-- A process ends its standard output, so the server closes the channel. The client closes it as well and
opens a new one with the same number. Then the process writes an error message. -/
theorem reuse_session : ∃ id sched st s',
    Client.steps .flat (demoHandlers errIo List.length) 1000 (Client.start demoAuth) sched
      (demoState [Spec.encode (Spec.closeMsg 0), demoP0]) = (ok (.inl st), s') ∧
    s'.log = .received demoP0 :: .sent (Spec.encode (Spec.confirm 0 demoOpen)) :: (reuseGap ++
      .sent (Spec.encode (Spec.confirm id demoOpen)) ::
        [.proc (.stderr 0 (b! "x")), .sent (Spec.encode (Spec.dataMsg 5 (b! "x")))]) := by
  have hps : ∀ p ∈ [Spec.encode (Spec.closeMsg 0), demoP0], p.length ≤ 30000 := by decide
  obtain ⟨st, s1, h1, l1⟩ := demo_base errIo List.length hps
  obtain ⟨e2, m2, st2, s2, h2, l2⟩ := demo_out h1 l1 smooth_start ⟨by decide, by decide⟩
    (.stdoutEnd (n := 0) (peer := 5)
      ⟨⟨true, true, by simp [demoLog, errIo]⟩, by simp [demoLog, demoLog0]⟩
      (by rw [demo_view]; rfl)) rfl
  generalize ht2 : demoLog errIo ++ [Event.proc (.stdout 0 []), .sent (Spec.encode (Spec.eofMsg 5)),
    .sent (Spec.encode (Spec.closeMsg 5))] = t2 at l2
  have hv2 : Spec.view t2 = Spec.view (demoLog errIo) := by
    rw [← ht2, view_append]
    simp only [List.foldl_cons, List.foldl_nil, Spec.View.next,
      msgOf_encode (m := Spec.eofMsg 5) rfl trivial,
      msgOf_encode (m := Spec.closeMsg 5) rfl trivial, Option.elim]
    rfl
  obtain ⟨m3, st3, s3, b3, h3, l3, r3⟩ := demo_next hps h2 l2 m2
    (by subst ht2; exact ⟨by decide, by decide⟩) (m := Spec.closeMsg 0)
    (by subst ht2; rfl) rfl trivial (by simp [Spec.closeMsg]) (by
      intro h
      have h : FatalMsg _ (.channel (.close ⟨0⟩)) := h
      cases h with
      | unsupported h => cases h)
  have r3 : React _ _ _ _ _ (.channel (.close ⟨0⟩)) b3 := r3
  cases r3
  rw [hv2, demo_view] at l3
  have l3 : s3.log = t2 ++ [.received (Spec.encode (Spec.closeMsg 0)), .proc (.stdinClosed 0)] := l3
  generalize ht3 : t2 ++ [Event.received (Spec.encode (Spec.closeMsg 0)), .proc (.stdinClosed 0)] = t3
    at l3
  have hv3 : (Spec.view t3).homes 0 = some 5 ∧ (Spec.view t3).peers 0 = none := by
    rw [← ht3, view_append, hv2, demo_view]
    simp only [List.foldl_cons, List.foldl_nil, Spec.View.next,
      msgOf_encode (m := Spec.closeMsg 0) rfl trivial, Option.elim]
    exact ⟨rfl, rfl⟩
  obtain ⟨m4, st4, s4, b4, h4, l4, r4⟩ := demo_next hps h3 l3 m3
    (by subst ht3 ht2; exact ⟨by decide, by decide⟩) (m := .channel (.open demoOpen))
    (by subst ht3 ht2; rfl) rfl demoOpen_wf (by simp) (by
      intro h
      cases h with
      | unsupported h => cases h
      | full h => exact h 0 hv3.2)
  cases r4 with
  | opened g =>
  rename_i id
  generalize ht4 : t3 ++ Event.received (Spec.encode (.channel (.open demoOpen))) ::
    [.sent (Spec.encode (Spec.confirm id demoOpen))] = t4 at l4
  have hv4 : (Spec.view t4).homes 0 = some 5 := by
    rw [← ht4]
    exact (congrFun view_open_again 0).trans hv3.1
  obtain ⟨e5, m5, st5, s5, h5, l5⟩ := demo_out h4 l4 m4
    (by
      have h1 : Spec.Fresh demoAuth (t3 ++ .received (Spec.encode (.channel (.open demoOpen))) ::
          [.sent []]) := by subst ht3 ht2; exact ⟨by decide, by decide⟩
      rw [← ht4]
      simp only [Spec.Fresh, payloads_append, sentPayloads_append, List.length_append] at h1 ⊢
      exact h1)
    (.stderr (n := 0) (peer := 5) (d := b! "x")
      (by
        subst ht4 ht3 ht2
        exact ⟨⟨true, true, by simp [demoLog, errIo]⟩, by simp [demoLog, demoLog0]⟩)
      hv4 (by decide) (by decide)) rfl
  refine ⟨id, _, st5, s5, h5, ?_⟩
  rw [l5]
  subst ht4 ht3 ht2
  simp only [reuseGap, demoLog, demoLog0, List.cons_append, List.nil_append,
    List.drop_succ_cons, List.drop_zero, demoP0]

/-- a confirmation is sent -/
def isConfirm : Event → Bool
  | .sent (91 :: _) => true
  | _ => false

theorem split_first {α : Type} (f : α → Bool) : ∀ {a a' b b' : List α} {x x' : α},
    a ++ x :: b = a' ++ x' :: b' → (∀ e ∈ a, f e = false) → (∀ e ∈ a', f e = false) → f x = true →
    f x' = true → a = a' ∧ x = x' ∧ b = b' := by
  intro a
  induction a with
  | nil =>
    intro a' b b' x x' h _ h2 h3 _
    cases a' with
    | nil => exact ⟨rfl, List.cons.inj h⟩
    | cons y a' =>
      obtain ⟨rfl, -⟩ := List.cons.inj h
      rw [h2 _ (List.mem_cons_self ..)] at h3
      cases h3
  | cons y a ih =>
    intro a' b b' x x' h h1 h2 h3 h4
    cases a' with
    | nil =>
      obtain ⟨rfl, -⟩ := List.cons.inj h
      rw [h1 _ (List.mem_cons_self ..)] at h4
      cases h4
    | cons z a' =>
      obtain ⟨rfl, h'⟩ := List.cons.inj h
      obtain ⟨rfl, h5, h6⟩ := ih h' (fun e he => h1 e (List.mem_cons_of_mem _ he))
        (fun e he => h2 e (List.mem_cons_of_mem _ he)) h3 h4
      exact ⟨rfl, h5, h6⟩

theorem isConfirm_confirm (id : UInt32) (o : Chan.Open) :
    isConfirm (.sent (Spec.encode (Spec.confirm id o))) = true := rfl

theorem reuse_obeys (id : UInt32) : Spec.ReusesClosed (.received demoP0 ::
    .sent (Spec.encode (Spec.confirm 0 demoOpen)) :: (reuseGap ++
      .sent (Spec.encode (Spec.confirm id demoOpen)) ::
        [.proc (.stderr 0 (b! "x")), .sent (Spec.encode (Spec.dataMsg 5 (b! "x")))])) := by
  intro u v w i i' o o' h ho
  -- there are just two confirmations
  have hgap : ∀ e ∈ reuseGap, isConfirm e = false := by decide
  have hcount := congrArg (List.countP isConfirm) h
  have hg0 : reuseGap.countP isConfirm = 0 := by decide
  have hend : [Event.proc (.stderr 0 (b! "x")), .sent (Spec.encode (Spec.dataMsg 5 (b! "x")))].countP
      isConfirm = 0 := by decide
  have hP0 : isConfirm (.received demoP0) = false := rfl
  simp only [List.countP_append, List.countP_cons, isConfirm_confirm, hg0, hP0, if_true] at hcount
  rw [← List.countP_cons, ← List.countP_cons, hend] at hcount
  have hu : ∀ e ∈ u, isConfirm e = false := by
    have : u.countP isConfirm = 0 := by
      simp at hcount
      omega
    intro e he
    have := List.countP_eq_zero.mp this e he
    simpa using this
  have hv : ∀ e ∈ v, isConfirm e = false := by
    have : v.countP isConfirm = 0 := by
      simp at hcount
      omega
    intro e he
    have := List.countP_eq_zero.mp this e he
    simpa using this
  obtain ⟨rfl, h1, h2⟩ := split_first isConfirm (a := [.received demoP0]) h
    (by decide) hu (isConfirm_confirm _ _) (isConfirm_confirm _ _)
  obtain ⟨rfl, -, -⟩ := split_first isConfirm h2 hgap hv (isConfirm_confirm _ _) (isConfirm_confirm _ _)
  have h3 := encode_inj (m := Spec.confirm 0 demoOpen) (m' := Spec.confirm i o) rfl rfl trivial
    (by rw [← Event.sent.inj h1]; exact legal_encode trivial)
  have h4 : (0 : UInt32) = i ∧ demoOpen.senderChannel = o.senderChannel := by
    simp only [Spec.confirm, Message.channel.injEq, Channel.openConfirmation.injEq,
      Chan.OpenConfirmation.mk.injEq] at h3
    exact ⟨h3.2.1, h3.1⟩
  rw [← h4.1, ← h4.2]
  decide

/-- The client, which has kept to the rules, gets the error message on the new channel, on which nothing was
started. -/
theorem C88_refuted : ¬ C88_statement := by
  intro hall
  obtain ⟨id, sched, st, s', h, hl⟩ := reuse_session
  obtain ⟨ty, hty⟩ := hall _ _ _ _ _ _ _ _
    (.received demoP0 :: .sent (Spec.encode (Spec.confirm 0 demoOpen)) :: reuseGap) [] [] id demoOpen 0
    (b! "x") _ _ h (by rw [hl]; rfl)
    (reuse_obeys id) (.inr rfl) (legal_encode (show Spec.Fits _ by decide))
  cases hty

/-! ### C89 the size of packets -/

/-- C89 in full: the data in one message is not longer than the client allows for the channel (RFC 4254,
5.2). -/
def C89_statement : Prop :=
  ∀ (K : Crypto) (H : ConnHandlers) (user : Nat) (a : Authenticated) (sched : List Client.Step)
    (s s' : IoSt) (r : R Client.Stop (Client.St ⊕ Unit)) (t1 t2 t3 : List Event) (id : UInt32)
    (o : Chan.Open) (d p : Bytes),
    Client.steps K H user (Client.start a) sched s = (r, s') →
    s'.log = s.log ++ (t1 ++ .sent (Spec.encode (Spec.confirm id o)) :: (t2 ++ .sent p :: t3)) →
    Spec.Legal (Spec.dataMsg o.senderChannel d) p → d.length ≤ o.maxPacketSize.toNat

/-- C89, part: it holds if the client allows at least 256 bytes (RFC 4254 does not give a lower bound; 32768 is
usual). -/
theorem C89_usual_partial (hrun : Client.steps K H user (Client.start a) sched s = (r, s'))
    {t1 t2 : List Event} {d p : Bytes} {peer : UInt32} {o : Chan.Open}
    (hl : s'.log = s.log ++ (t1 ++ .sent p :: t2)) (hp : Spec.Legal (Spec.dataMsg peer d) p)
    (ho : 256 ≤ o.maxPacketSize.toNat) : d.length ≤ o.maxPacketSize.toNat := by
  have h := cause_of hrun rfl hl hp
  generalize hm : Spec.dataMsg peer d = m at h
  cases h with
  | stdout h1 h2 h3 => cases hm; omega
  | stderr h1 h2 h3 => cases hm; omega
  | _ => cases hm

/-- The client allows no data at all. -/
theorem C89_refuted : ¬ C89_statement := by
  intro hall
  obtain ⟨st, s1, h1, l1⟩ := demo_base demoIo List.length (ps := []) (by simp)
  obtain ⟨e2, m2, st2, s2, h2, l2⟩ := demo_out h1 l1 smooth_start ⟨by decide, by decide⟩
    (.stdout (n := 0) (peer := 5) (d := b! "x")
      ⟨⟨true, false, by simp [demoLog, demoIo]⟩, by simp [demoLog, demoLog0]⟩
      (by rw [demo_view]; rfl) (by decide) (by decide)) rfl
  have := hall _ _ _ _ _ _ _ _ [.received demoP0]
    ((demoLog demoIo).drop 2 ++ [.proc (.stdout 0 (b! "x"))]) [] 0 demoOpen (b! "x") _ h2
    (by rw [l2]; rfl) (legal_encode (show Spec.Fits _ by decide))
  revert this
  decide

end

end Nora
