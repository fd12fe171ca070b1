import Verif.Props.Conn
/-
C44-C50 and C60: input and output of processes, the streams, and the end of a session.
-/
namespace Nora
open R

section
variable {K : Crypto} {H : ConnHandlers} {user : Nat} {a : Authenticated} {sched : List Client.Step}
  {s s' : IoSt} {r : R Client.Stop (Client.St ⊕ Unit)} {A : Client.Cut → Prop} {l0 : List Event}

/-! ### the channels of processes -/

/-- no process is asked for -/
def NoSpawn (b : List Event) : Prop := ∀ ty n, Event.proc (.spawn ty n) ∉ b

theorem next_homes {v : Spec.View} {e : Event} (h : ∀ ty n, e ≠ .proc (.spawn ty n)) :
    (v.next e).homes = v.homes ∧ (v.next e).procs = v.procs := by
  cases e with
  | received p =>
    simp only [Spec.View.next]
    cases Spec.msgOf p with
    | none => exact ⟨rfl, rfl⟩
    | some m =>
      simp only [Option.elim]
      unfold Spec.View.receive
      split <;> exact ⟨rfl, rfl⟩
  | sent p =>
    simp only [Spec.View.next]
    cases Spec.msgOf p with
    | none => exact ⟨rfl, rfl⟩
    | some m =>
      simp only [Option.elim]
      unfold Spec.View.send
      split <;> exact ⟨rfl, rfl⟩
  | probe | auth => exact ⟨rfl, rfl⟩
  | proc e =>
    cases e with
    | spawn ty n => exact absurd rfl (h ty n)
    | started n i o e =>
      simp only [Spec.View.next]
      cases v.current <;> exact ⟨rfl, rfl⟩
    | _ => exact ⟨rfl, rfl⟩

theorem fold_homes {b : List Event} (h : NoSpawn b) : ∀ v : Spec.View,
    (b.foldl Spec.View.next v).homes = v.homes ∧ (b.foldl Spec.View.next v).procs = v.procs := by
  induction b with
  | nil => exact fun _ => ⟨rfl, rfl⟩
  | cons e b ih =>
    intro v
    rw [List.foldl_cons]
    obtain ⟨h1, h2⟩ := ih (fun ty n hm => h ty n (by simp [hm])) (v.next e)
    obtain ⟨h3, h4⟩ := next_homes (v := v) (e := e) fun ty n he => h ty n (by simp [he])
    exact ⟨h1.trans h3, h2.trans h4⟩

theorem noSpawn_closing (o : Option Nat) : NoSpawn (Spec.closing o) := by
  intro ty n h
  cases o <;> simp [Spec.closing] at h

theorem noSpawn_replyIf (w : Bool) (m : Message) : NoSpawn (Spec.replyIf w m) := by
  intro ty n h
  cases w <;> simp [Spec.replyIf] at h

/-- a block asks for at most one process -/
theorem Block.spawns {t b : List Event} (h : Spec.Block H user A l0 t b) : NoSpawn b ∨
    ∃ q ty b', b = .received q :: .proc (.spawn ty (Spec.view t).procs) :: b' ∧ NoSpawn b' := by
  cases h with
  | packet h =>
    cases h with
    | opened => exact .inl fun ty n h => by simp at h
    | run h1 h2 h3 h4 =>
      refine .inr ⟨_, _, _, rfl, fun ty n h => ?_⟩
      simp only [List.mem_cons, List.mem_append, Event.proc.injEq, reduceCtorEq, false_or] at h
      rcases h with h | h
      · exact noSpawn_closing _ _ _ h
      · exact noSpawn_replyIf _ _ _ _ h
    | decline =>
      refine .inl fun ty n h => ?_
      simp only [List.mem_cons, reduceCtorEq, false_or] at h
      exact noSpawn_replyIf _ _ _ _ h
    | data => exact .inl fun ty n h => by simp at h
    | eof =>
      refine .inl fun ty n h => ?_
      simp only [List.mem_cons, reduceCtorEq, false_or] at h
      exact noSpawn_closing _ _ _ h
    | close =>
      refine .inl fun ty n h => ?_
      simp only [List.mem_cons, reduceCtorEq, false_or] at h
      exact noSpawn_closing _ _ _ h
    | ignore => exact .inl fun ty n h => by simp at h
  | lostSpawn => exact .inr ⟨_, _, [], rfl, fun ty n h => by simp at h⟩
  | _ => exact .inl fun ty n h => by simp at h

/-- processes are numbered in order, and keep their channel -/
theorem Block.homes {t b : List Event} (h : Spec.Block H user A l0 t b)
    (hb : ∀ n, (Spec.view t).procs ≤ n → (Spec.view t).homes n = none) :
    (∀ n, (Spec.view (t ++ b)).procs ≤ n → (Spec.view (t ++ b)).homes n = none) ∧
    (∀ n peer, (Spec.view t).homes n = some peer → (Spec.view (t ++ b)).homes n = some peer) := by
  rw [view_append]
  rcases Block.spawns h with hs | ⟨q, ty, b', rfl, hs⟩
  · obtain ⟨h1, h2⟩ := fold_homes hs (Spec.view t)
    rw [h1, h2]
    exact ⟨hb, fun _ _ h => h⟩
  · rw [List.foldl_cons, List.foldl_cons]
    obtain ⟨h1, h2⟩ := fold_homes hs (((Spec.view t).next (.received q)).next
      (.proc (.spawn ty (Spec.view t).procs)))
    obtain ⟨h3, h4⟩ := next_homes (v := Spec.view t) (e := .received q) fun _ _ h => by cases h
    rw [h1, h2]
    simp only [Spec.View.next] at h3 h4 ⊢
    rw [h3, h4]
    refine ⟨fun n hn => ?_, fun n peer hp => ?_⟩
    · rw [set_ne _ _ (by omega)]
      exact hb n (by omega)
    · rw [set_ne]
      · exact hp
      · intro he
        rw [hb n (by omega)] at hp
        cases hp

theorem Trace.homes {t : List Event} (h : Spec.Trace H user A l0 t) :
    ∀ n, (Spec.view t).procs ≤ n → (Spec.view t).homes n = none := by
  induction h with
  | nil => exact fun _ _ => rfl
  | snoc ht hb ih => exact (Block.homes hb ih).1

/-! ### output -/

theorem dataTo_append (peer : UInt32) (t b : List Event) :
    Spec.dataTo peer (t ++ b) = Spec.dataTo peer t ++ Spec.dataTo peer b := List.flatMap_append

theorem outputFor_append (homes : Nat → Option UInt32) (peer : UInt32) (t b : List Event) :
    Spec.outputFor homes peer (t ++ b) = Spec.outputFor homes peer t ++ Spec.outputFor homes peer b :=
  List.flatMap_append

theorem dataTo_closing (peer : UInt32) (o : Option Nat) :
    Spec.dataTo peer (Spec.closing o) = [] := by cases o <;> rfl

theorem outputFor_closing (homes : Nat → Option UInt32) (peer : UInt32) (o : Option Nat) :
    Spec.outputFor homes peer (Spec.closing o) = [] := by cases o <;> rfl

/-- messages that carry no data -/
theorem dataTo_sent {peer : UInt32} {m : Message} (h : Spec.isReply m = false) (hw : Spec.WF m)
    (hd : ∀ d, m ≠ .channel (.data d)) (t : List Event) :
    Spec.dataTo peer (.sent (Spec.encode m) :: t) = Spec.dataTo peer t := by
  simp only [Spec.dataTo, List.flatMap_cons, msgOf_encode h hw]
  split
  · rename_i d he
    exact absurd (Option.some.inj he) (hd d)
  · rfl

theorem dataTo_data {peer ch : UInt32} {d : Bytes} (h : d.length ≤ 256) (t : List Event) :
    Spec.dataTo peer (.sent (Spec.encode (Spec.dataMsg ch d)) :: t) =
      (if ch = peer then d else []) ++ Spec.dataTo peer t := by
  simp only [Spec.dataTo, List.flatMap_cons, msgOf_encode (m := Spec.dataMsg ch d) rfl (wf_dataMsg h)]
  rfl

theorem dataTo_replyIf (peer : UInt32) {w : Bool} {m : Message} (h : Spec.isReply m = false)
    (hw : Spec.WF m) (hd : ∀ d, m ≠ .channel (.data d)) :
    Spec.dataTo peer (Spec.replyIf w m) = [] := by
  cases w with
  | false => rfl
  | true => exact dataTo_sent h hw hd []

theorem outputFor_replyIf (homes : Nat → Option UInt32) (peer : UInt32) (w : Bool) (m : Message) :
    Spec.outputFor homes peer (Spec.replyIf w m) = [] := by cases w <;> rfl

theorem home_if {homes : Nat → Option UInt32} {n : Nat} {ch peer : UInt32} {d : Bytes}
    (h : homes n = some ch) :
    (if homes n = some peer then d else []) = if ch = peer then d else [] := by
  rw [h]
  by_cases hc : ch = peer
  · rw [if_pos hc, if_pos (by rw [hc])]
  · rw [if_neg hc, if_neg (by simpa using hc)]

theorem Block.data {t b : List Event} (h : Spec.Block H user A l0 t b)
    {homes : Nat → Option UInt32}
    (hh : ∀ n peer, (Spec.view t).homes n = some peer → homes n = some peer) (peer : UInt32) :
    Spec.dataTo peer b = Spec.outputFor homes peer b := by
  cases h with
  | packet h =>
    cases h with
    | opened =>
      rename_i o id _ _
      exact dataTo_sent (peer := peer) (m := Spec.confirm id o) rfl (wf_confirm _ _) (fun _ h => by cases h) []
    | run h1 h2 h3 h4 =>
      rename_i _ _ _ ch _ _
      have e1 : ∀ (ty : SpawnType) (q : Bytes) (n : Nat) (i o e : Bool) (l : List Event), Spec.dataTo peer
        (.received q :: .proc (.spawn ty n) :: .proc (.started n i o e) :: l) = Spec.dataTo peer l :=
        fun _ _ _ _ _ _ _ => rfl
      have e2 : ∀ (ty : SpawnType) (q : Bytes) (n : Nat) (i o e : Bool) (l : List Event),
        Spec.outputFor homes peer
        (.received q :: .proc (.spawn ty n) :: .proc (.started n i o e) :: l) =
        Spec.outputFor homes peer l := fun _ _ _ _ _ _ _ => rfl
      rw [e1, e2, dataTo_append, outputFor_append, dataTo_closing, outputFor_closing,
        dataTo_replyIf peer (m := Spec.success ch) rfl trivial (fun _ h => by cases h), outputFor_replyIf]
    | decline h1 h2 h3 h4 =>
      rename_i _ _ ch
      have e1 : ∀ (q : Bytes) (l : List Event), Spec.dataTo peer (.received q :: l) =
        Spec.dataTo peer l := fun _ _ => rfl
      have e2 : ∀ (q : Bytes) (l : List Event), Spec.outputFor homes peer (.received q :: l) =
        Spec.outputFor homes peer l := fun _ _ => rfl
      rw [e1, e2, dataTo_replyIf peer (m := Spec.failure ch) rfl trivial (fun _ h => by cases h), outputFor_replyIf]
    | data => rfl
    | eof => exact (dataTo_closing peer _).trans (outputFor_closing homes peer _).symm
    | close => exact (dataTo_closing peer _).trans (outputFor_closing homes peer _).symm
    | ignore => rfl
  | lostSpawn => rfl
  | lostData => rfl
  | stdout h1 h2 h3 h4 =>
    rename_i n ch d
    have e1 : Spec.dataTo peer [.proc (.stdout n d), .sent (Spec.encode (Spec.dataMsg ch d))] =
      Spec.dataTo peer [.sent (Spec.encode (Spec.dataMsg ch d))] := rfl
    have e2 : Spec.outputFor homes peer [.proc (.stdout n d),
      .sent (Spec.encode (Spec.dataMsg ch d))] = (if homes n = some peer then d else []) ++ [] := rfl
    rw [e1, e2, dataTo_data h4, home_if (hh _ _ h2)]
    rfl
  | stdoutEnd h1 h2 =>
    rename_i n ch
    have e1 : Spec.dataTo peer [.proc (.stdout n []), .sent (Spec.encode (Spec.eofMsg ch)),
      .sent (Spec.encode (Spec.closeMsg ch))] = Spec.dataTo peer [.sent (Spec.encode (Spec.eofMsg ch)),
      .sent (Spec.encode (Spec.closeMsg ch))] := rfl
    have e2 : Spec.outputFor homes peer [.proc (.stdout n []), .sent (Spec.encode (Spec.eofMsg ch)),
      .sent (Spec.encode (Spec.closeMsg ch))] = (if homes n = some peer then [] else []) ++ [] := rfl
    rw [e1, e2, dataTo_sent (m := Spec.eofMsg ch) rfl trivial (fun _ h => by cases h),
      dataTo_sent (m := Spec.closeMsg ch) rfl trivial (fun _ h => by cases h)]
    simp [Spec.dataTo]
  | stderr h1 h2 h3 h4 =>
    rename_i n ch d
    have e1 : Spec.dataTo peer [.proc (.stderr n d), .sent (Spec.encode (Spec.dataMsg ch d))] =
      Spec.dataTo peer [.sent (Spec.encode (Spec.dataMsg ch d))] := rfl
    have e2 : Spec.outputFor homes peer [.proc (.stderr n d),
      .sent (Spec.encode (Spec.dataMsg ch d))] = (if homes n = some peer then d else []) ++ [] := rfl
    rw [e1, e2, dataTo_data h4, home_if (hh _ _ h2)]
    rfl
  | stderrEnd h1 h2 =>
    rename_i n ch
    have e2 : Spec.outputFor homes peer [.proc (.stderr n [])] =
      (if homes n = some peer then [] else []) ++ [] := rfl
    rw [e2]
    simp [Spec.dataTo]
  | exit h1 h2 =>
    rename_i _ ch status
    exact dataTo_sent (m := Spec.exitMsg ch status) rfl (wf_exitMsg _ _) (fun _ h => by cases h) []

theorem Trace.data {t : List Event} (h : Spec.Trace H user A l0 t) : ∀ {homes : Nat → Option UInt32},
    (∀ n peer, (Spec.view t).homes n = some peer → homes n = some peer) → ∀ peer,
    Spec.dataTo peer t = Spec.outputFor homes peer t := by
  induction h with
  | nil => intros; rfl
  | snoc ht hb ih =>
    intro homes hh peer
    have hmono := (Block.homes hb (Trace.homes ht)).2
    rw [dataTo_append, outputFor_append, ih (fun n p h => hh n p (hmono n p h)) peer,
      Block.data hb (fun n p h => hh n p (hmono n p h)) peer]

theorem prefix_of_eq {l l' : Bytes} (h : l = l') : l <+: l' := h ▸ List.prefix_refl _

/-- the events of the last, incomplete block -/
theorem Ending.data {W O L F : Prop} {t b : List Event}
    (h : Spec.Ending H user A W O L F l0 t r b) {homes : Nat → Option UInt32}
    (hh : ∀ n peer, (Spec.view t).homes n = some peer → homes n = some peer) (peer : UInt32) :
    Spec.dataTo peer b <+: Spec.outputFor homes peer b := by
  -- what is sent last
  have last : ∀ {b q b'}, Spec.Block H user A l0 t (b ++ .sent q :: b') →
      Spec.dataTo peer (b ++ [.sent q]) <+: Spec.outputFor homes peer (b ++ [.sent q]) ∧
      Spec.dataTo peer b <+: Spec.outputFor homes peer b := by
    intro b q b' hb
    have hl := Block.local hb
    generalize he : Event.sent q = e at hl
    cases hl with
    | confirm g1 g2 =>
      exact ⟨prefix_of_eq (Block.data (H := H) (user := user) (A := A) (l0 := l0) (.packet (.opened g1 g2)) hh peer), List.nil_prefix⟩
    | success g1 g2 g3 g4 g5 =>
      rename_i ch _ _ _
      rw [dataTo_append, dataTo_append, dataTo_closing,
        dataTo_sent (m := Spec.success ch) rfl trivial (fun _ h => by cases h)]
      exact ⟨List.nil_prefix, List.nil_prefix⟩
    | failure g1 g2 g3 g4 g5 =>
      rename_i ch
      rw [dataTo_append, dataTo_sent (m := Spec.failure ch) rfl trivial (fun _ h => by cases h)]
      exact ⟨List.nil_prefix, List.nil_prefix⟩
    | stdoutData g1 g2 g3 g4 =>
      exact ⟨prefix_of_eq (Block.data (H := H) (user := user) (A := A) (l0 := l0) (.stdout g1 g2 g3 g4) hh peer), List.nil_prefix⟩
    | stdoutEof g1 g2 =>
      rename_i ch
      rw [dataTo_append, dataTo_sent (m := Spec.eofMsg ch) rfl trivial (fun _ h => by cases h)]
      exact ⟨List.nil_prefix, List.nil_prefix⟩
    | stdoutClose g1 g2 =>
      rename_i n ch
      have e1 : Spec.dataTo peer [.proc (.stdout n []), .sent (Spec.encode (Spec.eofMsg ch))] = [] := by
        show Spec.dataTo peer [.sent (Spec.encode (Spec.eofMsg ch))] = []
        rw [dataTo_sent (m := Spec.eofMsg ch) rfl trivial (fun _ h => by cases h)]
        rfl
      rw [dataTo_append, e1, dataTo_sent (m := Spec.closeMsg ch) rfl trivial (fun _ h => by cases h)]
      exact ⟨List.nil_prefix, List.nil_prefix⟩
    | stderrData g1 g2 g3 g4 =>
      exact ⟨prefix_of_eq (Block.data (H := H) (user := user) (A := A) (l0 := l0) (.stderr g1 g2 g3 g4) hh peer), List.nil_prefix⟩
    | exitStatus g1 g2 =>
      rename_i _ ch status
      rw [dataTo_append,
        dataTo_sent (m := Spec.exitMsg ch status) rfl (wf_exitMsg _ _) (fun _ h => by cases h)]
      exact ⟨List.nil_prefix, List.nil_prefix⟩
    | _ => cases he
  cases h with
  | write _ hb => exact (last hb).1
  | sendOverflow _ hb => exact (last hb).2
  | _ => exact List.nil_prefix

theorem procs_bound (hrun : Client.steps K H user (Client.start a) sched s = (r, s')) :
    ∀ {t t' : List Event}, s'.log = s.log ++ (t ++ t') → ∀ {n peer},
    (Spec.view t).homes n = some peer → n < (Spec.view t).procs := by
  intro t
  induction t using snoc_induction with
  | h0 => intro t' _ n peer h; simp [Spec.view, Spec.View.empty] at h
  | h1 t e ih =>
    intro t' hl n peer hv
    rw [List.append_assoc] at hl
    rw [view_snoc] at hv ⊢
    by_cases he : ∃ ty m, e = .proc (.spawn ty m)
    · obtain ⟨ty, m, rfl⟩ := he
      obtain ⟨t0, q, _, _, _, h1, _, _, _, _, h2⟩ := C43_spawn hrun hl
      have h3 : (Spec.view t).procs = (Spec.view t0).procs := by
        rw [h1, view_snoc]
        exact (next_homes fun _ _ h => by cases h).2
      simp only [Spec.View.next] at hv ⊢
      by_cases hn : n = m
      · omega
      · rw [set_ne _ _ hn] at hv
        have := ih hl hv
        omega
    · obtain ⟨h1, h2⟩ := next_homes (v := Spec.view t) (e := e) fun ty n h => he ⟨ty, n, h⟩
      rw [h1] at hv
      rw [h2]
      exact ih hl hv

/-- a process keeps its channel -/
theorem homes_mono (hrun : Client.steps K H user (Client.start a) sched s = (r, s')) {t : List Event}
    {n : Nat} {peer : UInt32} : ∀ {t' t'' : List Event}, s'.log = s.log ++ (t ++ t' ++ t'') →
    (Spec.view t).homes n = some peer → (Spec.view (t ++ t')).homes n = some peer := by
  intro t'
  induction t' using snoc_induction with
  | h0 => intro t'' _ h; rw [List.append_nil]; exact h
  | h1 t' e ih =>
    intro t'' hl h
    have hl' : s'.log = s.log ++ (t ++ t' ++ e :: t'') := by rw [hl]; simp
    have hv := ih hl' h
    rw [← List.append_assoc, view_snoc]
    by_cases he : ∃ ty m, e = .proc (.spawn ty m)
    · obtain ⟨ty, m, rfl⟩ := he
      obtain ⟨t0, q, _, _, _, h1, _, _, _, _, h2⟩ := C43_spawn hrun hl'
      have h3 : (Spec.view (t ++ t')).procs = (Spec.view t0).procs := by
        rw [h1, view_snoc]
        exact (next_homes fun _ _ h => by cases h).2
      have := procs_bound hrun hl' hv
      simp only [Spec.View.next]
      rw [set_ne _ _ (by omega)]
      exact hv
    · rw [(next_homes fun ty n h => he ⟨ty, n, h⟩).1]
      exact hv

/-- C44: the data sent to a channel is exactly the output of the processes started on this channel, as
it was read, in order. (If the run ends with an error or panic, the last part may not have been sent.) -/
theorem C44_data (hrun : Client.steps K H user (Client.start a) sched s = (r, s'))
    {t : List Event} (hl : s'.log = s.log ++ t) (peer : UInt32) :
    Spec.dataTo peer t <+: Spec.outputFor (Spec.view t).homes peer t ∧
    ∀ x, r = ok x → Spec.dataTo peer t = Spec.outputFor (Spec.view t).homes peer t := by
  cases session_whole hrun hl with
  | on h1 h2 h3 =>
    have := Trace.data h2 (fun _ _ h => h) peer
    exact ⟨prefix_of_eq this, fun _ _ => this⟩
  | ended h1 h2 =>
    rename_i t b
    have hmono : ∀ n p, (Spec.view t).homes n = some p → (Spec.view (t ++ b)).homes n = some p :=
      fun n p hp => homes_mono hrun (t'' := []) (by rw [hl, List.append_nil]) hp
    have e1 := Trace.data h1 hmono peer
    have e2 := Ending.data h2 hmono peer
    rw [dataTo_append, outputFor_append, e1]
    refine ⟨List.prefix_append_right_inj _ |>.mpr e2, ?_⟩
    intro x hx
    subst hx
    cases h2 with
    | disconnect => rfl

/-- C44: EOF is sent only directly after the standard output of a process has ended: all output that was
read before has been sent before (C44_data), and none is read later. -/
theorem C44_eof (hrun : Client.steps K H user (Client.start a) sched s = (r, s'))
    {t1 t2 : List Event} {p : Bytes} {e : Chan.ChanOnly}
    (hl : s'.log = s.log ++ (t1 ++ .sent p :: t2)) (hp : Spec.Legal (.channel (.eof e)) p) :
    ∃ t0 n, t1 = t0 ++ [.proc (.stdout n [])] ∧
      (Spec.view t0).homes n = some e.recipientChannel ∧ .proc (.stdout n []) ∉ t0 ∧
      ∀ d, .proc (.stdout n d) ∉ t2 := by
  have h := cause_of hrun rfl hl hp
  cases h with
  | eof h1 h2 h0 =>
    rename_i t0 n _
    refine ⟨t0, n, h1, h2, ?_, ?_⟩
    · obtain ⟨t0', b, h3, _, h4⟩ :=
        (session_whole hrun (t := t0 ++ .proc (.stdout n []) :: .sent p :: t2) (by rw [hl, h1]; simp)).local
      cases h4 with
      | stdout g1 g2 g3 =>
        rw [List.append_nil] at h3
        rw [h3]
        exact g1.2
    · intro d hd
      obtain ⟨x, y, rfl⟩ := List.append_of_mem hd
      obtain ⟨t0', b, h3, _, h4⟩ :=
        (session_whole hrun (t := t0 ++ .proc (.stdout n []) :: .sent p :: x ++ .proc (.stdout n d) :: y)
          (by rw [hl, h1]; simp)).local
      cases h4 with
      | stdout g1 g2 g3 =>
        rw [List.append_nil] at h3
        exact g1.2 (by rw [← h3]; simp)

/-- C44: CLOSE is sent only directly after this EOF. -/
theorem C44_close (hrun : Client.steps K H user (Client.start a) sched s = (r, s'))
    {t1 t2 : List Event} {p : Bytes} {c : Chan.ChanOnly}
    (hl : s'.log = s.log ++ (t1 ++ .sent p :: t2)) (hp : Spec.Legal (.channel (.close c)) p) :
    ∃ t0 n, t1 = t0 ++ [.proc (.stdout n []), .sent (Spec.encode (Spec.eofMsg c.recipientChannel))] ∧
      (Spec.view t0).homes n = some c.recipientChannel := by
  have h := cause_of hrun rfl hl hp
  cases h with
  | close h1 h2 => exact ⟨_, _, h1, h2⟩

/-- C44: when the standard output of a process ends, EOF and CLOSE are sent at once, unless the run ends
because a write fails or a packet counter is exhausted. -/
theorem C44_ended (hrun : Client.steps K H user (Client.start a) sched s = (r, s'))
    {t1 t2 : List Event} {n : Nat} (hl : s'.log = s.log ++ (t1 ++ .proc (.stdout n []) :: t2)) :
    ∃ peer, (Spec.view t1).homes n = some peer ∧
    ((∃ t3, t2 = .sent (Spec.encode (Spec.eofMsg peer)) ::
        .sent (Spec.encode (Spec.closeMsg peer)) :: t3) ∨
      (t2.length ≤ 1 ∧ ((r = err .out ∧ s.wcap ≠ none) ∨ (r = R.panic ∧ Spec.Exhausted a t1)))) := by
  obtain ⟨t0, b1, h1, _, h⟩ := (session_whole hrun hl).split
  have hb : b1 = [] := by
    rcases h with ⟨_, _, _, h, _⟩ | h
    · have := Block.local h
      cases this
      rfl
    · have := Ending.local h
      cases this
      rfl
  subst hb
  rw [List.append_nil] at h1
  subst h1
  -- the block
  have block : ∀ {b}, Spec.Block H user (Spec.Drops sched) s.log t1 (.proc (.stdout n []) :: b) →
      ∃ peer, (Spec.view t1).homes n = some peer ∧
      b = [.sent (Spec.encode (Spec.eofMsg peer)), .sent (Spec.encode (Spec.closeMsg peer))] := by
    intro b hb
    generalize he : Event.proc (.stdout n []) :: b = x at hb
    cases hb with
    | stdout g1 g2 g3 g4 => cases he; exact absurd rfl g3
    | stdoutEnd g1 g2 => cases he; exact ⟨_, g2, rfl⟩
    | _ => cases he
  rcases h with ⟨b2, t3, rfl, h, _⟩ | h
  · obtain ⟨peer, h2, rfl⟩ := block h
    exact ⟨peer, h2, .inl ⟨t3, rfl⟩⟩
  · generalize hb : [] ++ Event.proc (.stdout n []) :: t2 = b at h
    cases h with
    | write hw hbl =>
      rename_i b q b'
      match b, hb with
      | x :: b, hb =>
        obtain ⟨rfl, rfl⟩ := List.cons.inj hb
        obtain ⟨peer, h2, h3⟩ := block hbl
        refine ⟨peer, h2, ?_⟩
        match b, h3 with
        | [], h3 => exact .inr ⟨by simp, .inl ⟨rfl, hw⟩⟩
        | [y], h3 =>
          simp only [List.append_eq, List.cons_append, List.nil_append, List.cons.injEq, Event.sent.injEq] at h3
          obtain ⟨rfl, rfl, _⟩ := h3
          exact .inl ⟨[], rfl⟩
        | y :: z :: b, h3 =>
          have := congrArg List.length h3
          simp at this
    | sendOverflow ho hbl =>
      subst hb
      obtain ⟨peer, h2, h3⟩ := block hbl
      refine ⟨peer, h2, .inr ⟨?_, .inr ⟨rfl, ho⟩⟩⟩
      have := congrArg List.length h3
      simp at this
      omega
    | _ => cases hb

/-- C44, part: as long as a session goes on and no reply was interrupted, the server goes on reading the
standard output and error output of each process until they end, and waits for its exit. (A process with
neither output is not waited for.) -/
theorem C44_reading_partial {st : Client.St}
    (hrun : Client.steps K H user (Client.start a) sched s = (ok (.inl st), s'))
    (hcut : ∀ n, ¬ Spec.Drops sched (.write n)) {t : List Event} (hl : s'.log = s.log ++ t) (n : Nat) :
    (Spec.Reading t n → ∃ (i : Nat) (peer : UInt32), st.stdouts[i]? = some (n, peer) ∧ (Spec.view t).homes n = some peer) ∧
    (Spec.ReadingErr t n →
      ∃ (i : Nat) (peer : UInt32), st.stderrs[i]? = some (n, peer) ∧ (Spec.view t).homes n = some peer) ∧
    (Spec.Watched t n →
      ∃ (i : Nat) (peer : UInt32), st.waits[i]? = some (n, peer) ∧ (Spec.view t).homes n = some peer) := by
  cases session_whole hrun hl with
  | on h1 h2 h3 =>
    cases h1
    refine ⟨fun h => ?_, fun h => ?_, fun h => ?_⟩
    · obtain ⟨peer, hm⟩ := h3.agrees.outsAll hcut n h
      obtain ⟨i, hi⟩ := List.getElem?_of_mem hm
      exact ⟨i, peer, hi, (h3.agrees.outs _ hm).1⟩
    · obtain ⟨peer, hm⟩ := h3.agrees.errsAll hcut n h
      obtain ⟨i, hi⟩ := List.getElem?_of_mem hm
      exact ⟨i, peer, hi, (h3.agrees.errs _ hm).1⟩
    · obtain ⟨peer, hm⟩ := h3.agrees.waitsAll hcut n h
      obtain ⟨i, hi⟩ := List.getElem?_of_mem hm
      exact ⟨i, peer, hi, (h3.agrees.waits _ hm).1⟩
  | ended h1 h2 => nomatch h2

end

end Nora
