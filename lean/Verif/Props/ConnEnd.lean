import Verif.Props.ConnIO
/-
C45-C50, C60, C61: input of processes, the streams, and the end of a session.
-/
namespace Nora
open R

section
variable {K : Crypto} {H : ConnHandlers} {user : Nat} {a : Authenticated} {sched : List Client.Step}
  {s s' : IoSt} {r : R Client.Stop (Client.St ⊕ Unit)} {A : Client.Cut → Prop} {l0 : List Event}

/-! ### input -/

/-- C45, C43: a process gets only what the client has just sent to its channel: the first `k` bytes of
it, where `k` is what the process takes with one write. -/
theorem C45_taken (hrun : Client.steps K H user (Client.start a) sched s = (r, s'))
    {t1 t2 : List Event} {n : Nat} {d : Bytes}
    (hl : s'.log = s.log ++ (t1 ++ .proc (.stdin n d) :: t2)) :
    ∃ t0 q x k, t1 = t0 ++ [.received q] ∧ Spec.Legal (.channel (.data x)) q ∧
      (Spec.view t0).peers x.recipientChannel ≠ none ∧
      (Spec.view t0).stdins x.recipientChannel = some n ∧ d = x.data.take k ∧
      H.write (s.log ++ t1) n x.data = ok k := by
  obtain ⟨t0, b, h1, _, h⟩ := (session_whole hrun hl).local
  cases h with
  | stdin g1 g2 g3 g4 =>
    exact ⟨_, _, _, _, h1, g1, g2, g3, rfl, by rw [h1, ← List.append_assoc]; exact g4⟩

theorem taken_append (n : Nat) (t b : List Event) :
    Spec.taken n (t ++ b) = Spec.taken n t ++ Spec.taken n b := List.flatMap_append

theorem taken_closing (n : Nat) (o : Option Nat) : Spec.taken n (Spec.closing o) = [] := by
  cases o <;> rfl

theorem taken_replyIf (n : Nat) (w : Bool) (m : Message) : Spec.taken n (Spec.replyIf w m) = [] := by
  cases w <;> rfl

theorem inputs_append (n : Nat) (t b : List Event) : ∀ v : Spec.View,
    Spec.inputs n v (t ++ b) = Spec.inputs n v t ++ Spec.inputs n (t.foldl Spec.View.next v) b := by
  induction t with
  | nil => exact fun v => rfl
  | cons e t ih =>
    intro v
    rw [List.cons_append, Spec.inputs, Spec.inputs, ih, List.foldl_cons, List.append_assoc]

theorem inputs_noPacket {b : List Event} (h : NoPacket b) (n : Nat) : ∀ v : Spec.View,
    Spec.inputs n v b = [] := by
  induction b with
  | nil => exact fun v => rfl
  | cons e b ih =>
    intro v
    rw [Spec.inputs, ih fun x hx => h x (by simp [hx])]
    cases e with
    | received x => exact absurd (by simp) (h x)
    | _ => rfl

theorem inputs_packet {b : List Event} (h : NoPacket b) (n : Nat) (v : Spec.View) (q : Bytes) :
    Spec.inputs n v (.received q :: b) = match Spec.msgOf q with
      | some (.channel (.data d)) => if v.stdins d.recipientChannel = some n then d.data else []
      | _ => [] := by
  rw [Spec.inputs, inputs_noPacket h, List.append_nil]
  rfl

theorem noPacket_closing (o : Option Nat) : NoPacket (Spec.closing o) := by
  intro x h
  cases o <;> simp [Spec.closing] at h

theorem noPacket_replyIf (w : Bool) (m : Message) : NoPacket (Spec.replyIf w m) := by
  intro x h
  cases w <;> simp [Spec.replyIf] at h

/-- processes take all they are given -/
def Spec.TakesAll (H : ConnHandlers) : Prop :=
  ∀ log n d k, H.write log n d = ok k → d.length ≤ k

theorem Block.input {t b : List Event} (h : Spec.Block H user A l0 t b) (hA : ¬ A .stdin)
    (hH : Spec.TakesAll H) (n : Nat) : Spec.taken n b = Spec.inputs n (Spec.view t) b := by
  cases h with
  | packet h =>
    cases h with
    | opened h1 h2 =>
      rw [inputs_packet (fun x h => by simp at h), h1.msgOf rfl]
      rfl
    | run h1 h2 h3 h4 =>
      rename_i req q ty peer io h5
      have hb : NoPacket (.proc (.spawn ty (Spec.view t).procs) ::
          .proc (.started (Spec.view t).procs io.stdin io.stdout io.stderr) ::
          (Spec.closing ((Spec.view t).stdins req.recipientChannel) ++
            Spec.replyIf req.wantReply (Spec.success peer))) := by
        intro x hx
        simp only [List.mem_cons, reduceCtorEq, List.mem_append, false_or] at hx
        rcases hx with hx | hx
        · exact noPacket_closing _ x hx
        · exact noPacket_replyIf _ _ x hx
      rw [inputs_packet hb, h1.msgOf rfl]
      show Spec.taken n (Spec.closing _ ++ Spec.replyIf _ _) = []
      rw [taken_append, taken_closing, taken_replyIf]
      rfl
    | decline h1 h2 h3 h4 =>
      rw [inputs_packet (noPacket_replyIf _ _), h1.msgOf rfl]
      exact taken_replyIf _ _ _
    | data h1 h2 h3 h4 =>
      rename_i d m k
      rw [inputs_packet (fun x h => by simp at h), h1.msgOf rfl]
      have hk := hH _ _ _ _ h4
      simp only [Spec.taken, List.flatMap_cons, List.flatMap_nil, List.append_nil, List.nil_append,
        List.take_of_length_le hk, h3, Option.some.injEq]
    | eof h1 h2 =>
      rw [inputs_packet (noPacket_closing _), h1.msgOf rfl]
      exact taken_closing _ _
    | close h1 =>
      rw [inputs_packet (noPacket_closing _), h1.msgOf rfl]
      exact taken_closing _ _
    | ignore h1 =>
      rw [inputs_packet (fun x h => by cases h), h1.msgOf rfl]
      rfl
  | lostSpawn h1 h2 =>
    rw [inputs_packet (fun x h => by simp at h), h2.msgOf rfl]
    rfl
  | lostData h1 => exact absurd h1 hA
  | _ =>
    rw [inputs_noPacket fun x h => by simp at h]
    rfl

theorem Trace.input {t : List Event} (h : Spec.Trace H user A l0 t) (hA : ¬ A .stdin)
    (hH : Spec.TakesAll H) (n : Nat) : Spec.taken n t = Spec.inputs n Spec.View.empty t := by
  induction h with
  | nil => rfl
  | snoc ht hb ih =>
    rw [taken_append, inputs_append, ih, Block.input hb hA hH n]
    rfl

/-- C45, part: if each process takes with one write all it is given, and `receive` is not dropped in
such a write, then each process gets exactly the channel data sent for it, in order. (If the run ends,
the data of the last packet may not have been given to it.) -/
theorem C45_input_partial (hrun : Client.steps K H user (Client.start a) sched s = (r, s'))
    (hH : Spec.TakesAll H) (hcut : ¬ Spec.Drops sched .stdin) {t : List Event}
    (hl : s'.log = s.log ++ t) (n : Nat) :
    Spec.taken n t <+: Spec.inputs n Spec.View.empty t ∧
    ∀ x, r = ok x → Spec.taken n t = Spec.inputs n Spec.View.empty t := by
  cases session_whole hrun hl with
  | on h1 h2 h3 =>
    have := Trace.input h2 hcut hH n
    exact ⟨prefix_of_eq this, fun _ _ => this⟩
  | ended h1 h2 =>
    rename_i t b
    have e1 := Trace.input h1 hcut hH n
    have last : ∀ {b q b'}, Spec.Block H user (Spec.Drops sched) s.log t (b ++ .sent q :: b') →
        Spec.taken n b = [] := by
      intro b q b' hb
      have hl := Block.local hb
      generalize he : Event.sent q = e at hl
      cases hl with
      | success =>
        show Spec.taken n (Spec.closing _) = []
        exact taken_closing _ _
      | received | spawn | started | replaced | stdin | eof | close | stdout | stderr | exited => cases he
      | _ => rfl
    have e2 : Spec.taken n b = [] := by
      cases h2 with
      | write _ hb =>
        rw [taken_append, last hb]
        rfl
      | sendOverflow _ hb => exact last hb
      | _ => rfl
    rw [taken_append, inputs_append, e1, e2, List.append_nil]
    refine ⟨List.prefix_append _ _, fun x hx => ?_⟩
    subst hx
    cases h2 with
    | disconnect h =>
      rw [inputs_packet (fun x h => by cases h), h.msgOf rfl, List.append_nil]

/-! ### the end of input -/

theorem procs_mono (t b : List Event) : (Spec.view t).procs ≤ (Spec.view (t ++ b)).procs := by
  rw [view_append]
  generalize Spec.view t = v
  induction b generalizing v with
  | nil => exact Nat.le_refl _
  | cons e b ih =>
    rw [List.foldl_cons]
    refine Nat.le_trans ?_ (ih _)
    by_cases he : ∃ ty m, e = .proc (.spawn ty m)
    · obtain ⟨ty, m, rfl⟩ := he
      simp only [Spec.View.next]
      omega
    · rw [(next_homes fun ty n h => he ⟨ty, n, h⟩).2]
      exact Nat.le_refl _

/-- the standard inputs that are open -/
structure Inputs (t : List Event) : Prop where
  bound : ∀ {id n}, (Spec.view t).stdins id = some n → n < (Spec.view t).procs
  once : ∀ {id id' n}, (Spec.view t).stdins id = some n → (Spec.view t).stdins id' = some n → id = id'
  opened : ∀ {id n}, (Spec.view t).stdins id = some n → .proc (.stdinClosed n) ∉ t
  closed : ∀ {n}, .proc (.stdinClosed n) ∈ t → n < (Spec.view t).procs

theorem set_some {α β : Type} [DecidableEq α] {f : α → Option β} {i j : α} {x : β}
    (h : Spec.set f i none j = some x) : f j = some x ∧ j ≠ i := by
  by_cases hj : j = i
  · rw [hj, set_same] at h; cases h
  · rw [set_ne _ _ hj] at h; exact ⟨h, hj⟩

theorem inputs_all (hrun : Client.steps K H user (Client.start a) sched s = (r, s')) :
    ∀ {t t' : List Event}, s'.log = s.log ++ (t ++ t') → ∀ u v, t = u ++ v → Inputs u := by
  intro t
  induction t using snoc_induction with
  | h0 =>
    intro t' _ u v h
    obtain ⟨rfl, rfl⟩ := List.append_eq_nil_iff.mp h.symm
    exact ⟨fun h => (by cases h), fun h => (by cases h), fun h => (by cases h), fun h => (by cases h)⟩
  | h1 t e ih =>
    intro t' hl u v huv
    rw [List.append_assoc] at hl
    -- a shorter list
    by_cases hv : v = []
    case neg =>
      obtain ⟨v', x, rfl⟩ : ∃ v' x, v = v' ++ [x] :=
        ⟨v.dropLast, v.getLast hv, (List.dropLast_concat_getLast hv).symm⟩
      rw [← List.append_assoc] at huv
      exact ih hl u v' (List.append_inj_left' huv rfl)
    subst hv
    rw [List.append_nil] at huv
    subst huv
    have It : Inputs t := ih hl t [] (List.append_nil t).symm
    -- nothing changes, or an input is gone
    have less : ((Spec.view (t ++ [e])).procs = (Spec.view t).procs ∨
        (Spec.view (t ++ [e])).procs = (Spec.view t).procs + 1) → (∀ n, e ≠ .proc (.stdinClosed n)) →
        (∀ {id n}, (Spec.view (t ++ [e])).stdins id = some n → (Spec.view t).stdins id = some n) →
        Inputs (t ++ [e]) := by
      intro hp he hs
      refine ⟨fun h => ?_, fun h h' => It.once (hs h) (hs h'), fun h hm => ?_, fun hm => ?_⟩
      · have := It.bound (hs h)
        omega
      · rcases List.mem_append.mp hm with hm | hm
        · exact It.opened (hs h) hm
        · exact he _ (List.mem_singleton.mp hm).symm
      · rcases List.mem_append.mp hm with hm | hm
        · have := It.closed hm
          omega
        · exact absurd (List.mem_singleton.mp hm).symm (he _)
    -- an input is closed that is not in use any more
    have gone : ∀ n, e = .proc (.stdinClosed n) → n < (Spec.view t).procs →
        (∀ id, (Spec.view t).stdins id ≠ some n) → Inputs (t ++ [e]) := by
      intro n he hn hs
      subst he
      have hv : Spec.view (t ++ [.proc (.stdinClosed n)]) = Spec.view t := by rw [view_snoc]; rfl
      refine ⟨by rw [hv]; exact It.bound, by rw [hv]; exact It.once, fun {id m} h hm => ?_,
        fun {m} hm => ?_⟩
      · rw [hv] at h
        rcases List.mem_append.mp hm with hm | hm
        · exact It.opened h hm
        · cases List.mem_singleton.mp hm
          exact hs _ h
      · rw [hv]
        rcases List.mem_append.mp hm with hm | hm
        · exact It.closed hm
        · cases List.mem_singleton.mp hm
          exact hn
    cases e with
    | received p =>
      refine less (.inl ?_) (fun _ h => by cases h) ?_
      · rw [view_snoc]
        exact (next_homes fun _ _ h => by cases h).2
      · intro id n h
        rw [view_snoc] at h
        simp only [Spec.View.next] at h
        cases hm : Spec.msgOf p with
        | none => rw [hm] at h; exact h
        | some m =>
          rw [hm, Option.elim] at h
          unfold Spec.View.receive at h
          split at h
          · exact (set_some h).1
          · exact (set_some h).1
          · exact h
          · exact h
    | sent p =>
      refine less (.inl ?_) (fun _ h => by cases h) ?_
      · rw [view_snoc]
        exact (next_homes fun _ _ h => by cases h).2
      · intro id n h
        rw [view_snoc] at h
        simp only [Spec.View.next] at h
        cases hm : Spec.msgOf p with
        | none => rw [hm] at h; exact h
        | some m =>
          rw [hm, Option.elim] at h
          unfold Spec.View.send at h
          split at h
          · exact (set_some h).1
          · exact h
    | probe | auth =>
      refine less (.inl ?_) (fun _ h => by cases h) ?_
      · rw [view_snoc]; rfl
      · intro id n h
        rw [view_snoc] at h
        exact h
    | proc f =>
      obtain ⟨t0, b, h1, _, h⟩ := (session_whole hrun hl).local
      cases f with
      | spawn ty n =>
        refine less (.inr ?_) (fun _ h => by cases h) ?_
        · rw [view_snoc]; rfl
        · intro id n h
          rw [view_snoc] at h
          exact h
      | started n i o e =>
        cases h with
        | started g1 g2 g3 g4 g5 =>
          rename_i q req x ty peer io
          have I0 : Inputs t0 := ih hl t0 _ h1
          have hv : (Spec.view t).current = some req.recipientChannel ∧
              (Spec.view t).stdins = (Spec.view t0).stdins ∧
              (Spec.view t).procs = (Spec.view t0).procs + 1 := by
            rw [h1, view_append]
            simp only [List.foldl_cons, List.foldl_nil, Spec.View.next, g1.msgOf rfl, Option.elim,
              Spec.View.receive, and_self]
          have hs : Spec.view (t ++ [.proc (.started (Spec.view t0).procs io.stdin io.stdout io.stderr)]) =
              { Spec.view t with
                stdins := (Spec.set (Spec.view t).stdins req.recipientChannel
                  (if io.stdin then some (Spec.view t0).procs else none)) } := by
            rw [view_snoc]
            simp only [Spec.View.next, hv.1, Option.elim]
          have hn : .proc (.stdinClosed (Spec.view t0).procs) ∉ t := by
            intro hm
            rw [h1] at hm
            rcases List.mem_append.mp hm with hm | hm
            · have := I0.closed hm
              omega
            · simp at hm
          have old : ∀ {id n}, (Spec.view t).stdins id = some n → n < (Spec.view t0).procs := by
            intro id n h
            rw [hv.2.1] at h
            exact I0.bound h
          have cases' : ∀ {id n}, Spec.set (Spec.view t).stdins req.recipientChannel
              (if io.stdin then some (Spec.view t0).procs else none) id = some n →
              (id = req.recipientChannel ∧ n = (Spec.view t0).procs) ∨
              (id ≠ req.recipientChannel ∧ (Spec.view t).stdins id = some n) := by
            intro id n h
            by_cases hid : id = req.recipientChannel
            · rw [hid, set_same] at h
              split at h
              · cases h; exact .inl ⟨hid, rfl⟩
              · cases h
            · rw [set_ne _ _ hid] at h
              exact .inr ⟨hid, h⟩
          refine ⟨fun h => ?_, fun h h' => ?_, fun h hm => ?_, fun hm => ?_⟩
          · rw [hs] at h ⊢
            rcases cases' h with ⟨_, rfl⟩ | ⟨_, h⟩
            · show _ < (Spec.view t).procs
              omega
            · exact It.bound h
          · rw [hs] at h h'
            rcases cases' h with ⟨rfl, rfl⟩ | ⟨_, h⟩
            · rcases cases' h' with ⟨h', _⟩ | ⟨_, h'⟩
              · exact h'.symm
              · exact absurd (old h') (Nat.lt_irrefl _)
            · rcases cases' h' with ⟨_, rfl⟩ | ⟨_, h'⟩
              · exact absurd (old h) (Nat.lt_irrefl _)
              · exact It.once h h'
          · rw [hs] at h
            rcases List.mem_append.mp hm with hm | hm
            · rcases cases' h with ⟨_, rfl⟩ | ⟨_, h⟩
              · exact hn hm
              · exact It.opened h hm
            · simp at hm
          · rw [hs]
            rcases List.mem_append.mp hm with hm | hm
            · exact It.closed hm
            · simp at hm
      | stdinClosed n =>
        cases h with
        | replaced g1 g2 g3 g4 g5 =>
          rename_i q req x ty peer i o e'
          have I0 : Inputs t0 := ih hl t0 _ h1
          have hv : (Spec.view t).stdins = Spec.set (Spec.view t0).stdins req.recipientChannel
                (if i then some (Spec.view t0).procs else none) ∧
              (Spec.view t).procs = (Spec.view t0).procs + 1 := by
            rw [h1, view_append]
            simp only [List.foldl_cons, List.foldl_nil, Spec.View.next, g1.msgOf rfl, Option.elim,
              Spec.View.receive, and_self]
          have hlt := I0.bound g5
          refine gone n rfl (by omega) fun id h => ?_
          rw [hv.1] at h
          by_cases hid : id = req.recipientChannel
          · rw [hid, set_same] at h
            split at h
            · cases h
              omega
            · cases h
          · rw [set_ne _ _ hid] at h
            exact hid (I0.once h g5)
        | eof g1 g2 =>
          rename_i q x
          have I0 : Inputs t0 := ih hl t0 _ h1
          have hv : (Spec.view t).stdins = Spec.set (Spec.view t0).stdins x.recipientChannel none ∧
              (Spec.view t).procs = (Spec.view t0).procs := by
            rw [h1, view_snoc]
            simp only [Spec.View.next, g1.msgOf rfl, Option.elim, Spec.View.receive, and_self]
          have hlt := I0.bound g2
          refine gone n rfl (by omega) fun id h => ?_
          rw [hv.1] at h
          exact (set_some h).2 (I0.once (set_some h).1 g2)
        | close g1 g2 =>
          rename_i q x
          have I0 : Inputs t0 := ih hl t0 _ h1
          have hv : (Spec.view t).stdins = Spec.set (Spec.view t0).stdins x.recipientChannel none ∧
              (Spec.view t).procs = (Spec.view t0).procs := by
            rw [h1, view_snoc]
            simp only [Spec.View.next, g1.msgOf rfl, Option.elim, Spec.View.receive, and_self]
          have hlt := I0.bound g2
          refine gone n rfl (by omega) fun id h => ?_
          rw [hv.1] at h
          exact (set_some h).2 (I0.once (set_some h).1 g2)
      | _ =>
        refine less (.inl ?_) (fun _ h => by cases h) ?_
        · rw [view_snoc]; rfl
        · intro id n h
          rw [view_snoc] at h
          exact h

/-- C61: a process gets no more input after its standard input is closed, and it is closed only once. -/
theorem C61_closed (hrun : Client.steps K H user (Client.start a) sched s = (r, s'))
    {t1 t2 : List Event} {n : Nat}
    (hl : s'.log = s.log ++ (t1 ++ .proc (.stdinClosed n) :: t2)) :
    .proc (.stdinClosed n) ∉ t1 ∧ .proc (.stdinClosed n) ∉ t2 ∧ ∀ d, .proc (.stdin n d) ∉ t2 := by
  -- the process was open before
  have first : ∀ {t1 t2}, s'.log = s.log ++ (t1 ++ .proc (.stdinClosed n) :: t2) →
      .proc (.stdinClosed n) ∉ t1 := by
    intro t1 t2 hl hm
    obtain ⟨t0, b, h1, _, h⟩ := (session_whole hrun hl).local
    have I0 : Inputs t0 := inputs_all hrun hl t0 b h1
    rw [h1] at hm
    cases h with
    | replaced g1 g2 g3 g4 g5 =>
      rcases List.mem_append.mp hm with hm | hm
      · exact I0.opened g5 hm
      · simp at hm
    | eof g1 g2 =>
      rcases List.mem_append.mp hm with hm | hm
      · exact I0.opened g2 hm
      · simp at hm
    | close g1 g2 =>
      rcases List.mem_append.mp hm with hm | hm
      · exact I0.opened g2 hm
      · simp at hm
  refine ⟨first hl, fun hm => ?_, fun d hm => ?_⟩
  · obtain ⟨x, y, rfl⟩ := List.append_of_mem hm
    exact first (t1 := t1 ++ .proc (.stdinClosed n) :: x) (t2 := y) (by rw [hl]; simp) (by simp)
  · obtain ⟨x, y, rfl⟩ := List.append_of_mem hm
    have hl' : s'.log = s.log ++ ((t1 ++ .proc (.stdinClosed n) :: x) ++ .proc (.stdin n d) :: y) := by
      rw [hl]; simp
    obtain ⟨t0, b, h1, _, h⟩ := (session_whole hrun hl').local
    have I0 : Inputs t0 := inputs_all hrun hl' t0 b h1
    cases h with
    | stdin g1 g2 g3 g4 =>
      rename_i q' d' k
      have hm' : .proc (.stdinClosed n) ∈ t0 ++ [Event.received q'] := by rw [← h1]; simp
      rcases List.mem_append.mp hm' with hm' | hm'
      · exact I0.opened g3 hm'
      · simp at hm'

/-- C61: when the client sends EOF or CLOSE for a channel, the standard input of the process that gets
its data is closed at once. -/
theorem C61_close (hrun : Client.steps K H user (Client.start a) sched s = (r, s'))
    {t1 t2 : List Event} {q : Bytes} {c : Chan.ChanOnly} {n : Nat}
    (hl : s'.log = s.log ++ (t1 ++ .received q :: t2))
    (hq : Spec.Legal (.channel (.eof c)) q ∨ Spec.Legal (.channel (.close c)) q)
    (hn : (Spec.view t1).stdins c.recipientChannel = some n)
    (hopen : (Spec.view t1).peers c.recipientChannel ≠ none) :
    ∃ t3, t2 = .proc (.stdinClosed n) :: t3 := by
  have hc : Spec.closing ((Spec.view t1).stdins c.recipientChannel) = [.proc (.stdinClosed n)] := by
    rw [hn]; rfl
  have nosent : ∀ {b : List Event} {p b'}, b ++ .sent p :: b' ≠ [.proc (.stdinClosed n)] := by
    intro b p b' h
    have : Event.sent p ∈ b ++ .sent p :: b' := by simp
    rw [h] at this
    simp at this
  rcases hq with hq | hq
  · rcases (session_whole hrun hl).react rfl hq with ⟨_, h⟩
    cases h with
    | done h1 h2 =>
      cases h1 with
      | eof h => rw [hc]; exact ⟨_, rfl⟩
    | write hw1 hw2 h =>
      rename_i b p b'
      generalize hb : b ++ Event.sent p :: b' = x at h
      cases h with
      | eof h => rw [hc] at hb; exact absurd hb nosent
    | fatal _ h =>
      cases h with
      | unsupported h => cases h
      | eof h => exact absurd h hopen
    | overflow ho1 ho2 h =>
      rename_i p b'
      generalize hb : t2 ++ Event.sent p :: b' = x at h
      cases h with
      | eof h => rw [hc] at hb; exact absurd hb nosent
  · rcases (session_whole hrun hl).react rfl hq with ⟨_, h⟩
    cases h with
    | done h1 h2 =>
      cases h1 with
      | close => rw [hc]; exact ⟨_, rfl⟩
    | write hw1 hw2 h =>
      rename_i b p b'
      generalize hb : b ++ Event.sent p :: b' = x at h
      cases h with
      | close => rw [hc] at hb; exact absurd hb nosent
    | fatal _ h =>
      cases h with
      | unsupported h => cases h
    | overflow ho1 ho2 h =>
      rename_i p b'
      generalize hb : t2 ++ Event.sent p :: b' = x at h
      cases h with
      | close => rw [hc] at hb; exact absurd hb nosent

end

end Nora
