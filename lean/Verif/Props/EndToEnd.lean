import Verif.Props.ConnWitness
import Verif.Props.Integrity
/-
C80 and C81: from end to end. What the processes write arrives at a client that has the keys, and what
the client sends arrives at the processes.
-/
namespace Nora
open R

/-- the channel data in these payloads for the channel with the number `ch` -/
noncomputable def Spec.dataIn (ch : UInt32) (ps : List Bytes) : Bytes :=
  ps.flatMap fun p => match Spec.msgOf p with
    | some (.channel (.data d)) => if d.recipientChannel = ch then d.data else []
    | _ => []

theorem dataIn_append (ch : UInt32) (ps qs : List Bytes) :
    Spec.dataIn ch (ps ++ qs) = Spec.dataIn ch ps ++ Spec.dataIn ch qs := List.flatMap_append

theorem dataTo_payloads (ch : UInt32) (t : List Event) :
    Spec.dataTo ch t = Spec.dataIn ch (Spec.sentPayloads t) := by
  induction t with
  | nil => rfl
  | cons e t ih =>
    have h1 : Spec.dataTo ch (e :: t) = Spec.dataTo ch [e] ++ Spec.dataTo ch t := dataTo_append ch [e] t
    rw [h1, ih]
    cases e with
    | sent p =>
      show _ = Spec.dataIn ch ([p] ++ Spec.sentPayloads t)
      rw [dataIn_append]
      congr 1
    | received p => rfl
    | auth => rfl
    | probe => rfl
    | proc => rfl

theorem sentPayloads_mid {p : Bytes} : ∀ {t : List Event} {ps1 ps2 : List Bytes},
    Spec.sentPayloads t = ps1 ++ p :: ps2 →
    ∃ t1 t2, t = t1 ++ .sent p :: t2 ∧ Spec.sentPayloads t1 = ps1 := by
  intro t
  induction t with
  | nil => intro ps1 ps2 h; simp [Spec.sentPayloads] at h
  | cons e t ih =>
    intro ps1 ps2 h
    have other : Spec.sentPayloads [e] = [] → ∃ t1 t2, e :: t = t1 ++ .sent p :: t2 ∧
        Spec.sentPayloads t1 = ps1 := by
      intro he
      have e1 : Spec.sentPayloads (e :: t) = Spec.sentPayloads [e] ++ Spec.sentPayloads t :=
        List.filterMap_append (l := [e])
      rw [e1, he] at h
      obtain ⟨t1, t2, rfl, h2⟩ := ih h
      refine ⟨e :: t1, t2, rfl, ?_⟩
      have e2 : Spec.sentPayloads (e :: t1) = Spec.sentPayloads [e] ++ Spec.sentPayloads t1 :=
        List.filterMap_append (l := [e])
      rw [e2, he, h2]
      rfl
    cases e with
    | sent q =>
      have e1 : Spec.sentPayloads (.sent q :: t) = q :: Spec.sentPayloads t := rfl
      rw [e1] at h
      match ps1, h with
      | [], h =>
        rw [List.nil_append, List.cons.injEq] at h
        exact ⟨[], t, by rw [h.1]; rfl, rfl⟩
      | x :: ps1, h =>
        rw [List.cons_append, List.cons.injEq] at h
        obtain ⟨t1, t2, rfl, h2⟩ := ih h.2
        exact ⟨.sent q :: t1, t2, rfl, by rw [← h2, ← h.1]; rfl⟩
    | received => exact other rfl
    | auth => exact other rfl
    | probe => exact other rfl
    | proc => exact other rfl

section
variable {K : Crypto} {H : ConnHandlers} {user : Nat} {a : Authenticated} {sched : List Client.Step}
  {s s' : IoSt} {st : Client.St}

/-- C80: as long as a session goes on and no reply was interrupted, a client that has the keys and a buffer
of 35000 bytes gets for each of its channels exactly the output of the processes of that channel, in the
order in which it was read. -/
theorem C80_output (hrun : Client.steps K H user (Client.start a) sched s = (ok (.inl st), s'))
    (hcut : ∀ n, ¬ Spec.Drops sched (.write n)) {t : List Event} (hl : s'.log = s.log ++ t) :
    ∃ w, s'.out = s.out ++ w ∧ ∀ (peer : ChaCha) (buf : Bytes) (sp : IoSt),
      Spec.keysOf peer = Spec.keysOf a.send → peer.counter = a.send.counter → 35000 ≤ buf.length →
      sp.inp = w → ∀ ch,
      Spec.dataIn ch (delivered K (Spec.sentPayloads t).length peer buf sp) =
        Spec.outputFor (Spec.view t).homes ch t := by
  obtain ⟨w, h1, h2, -, h4⟩ := C60_written hrun hcut hl
  refine ⟨w, h1, ?_⟩
  intro peer buf sp hk hcnt hb hi ch
  have hlt := st.send.counter.toNat_lt
  rw [stream_delivered (rest := []) (by rw [hk, hcnt, hi]; exact h2) hb (by rw [hcnt]; omega),
    ← dataTo_payloads]
  exact (C44_data hrun hl ch).2 _ rfl

/-- C80: when the client gets EOF for a channel, the standard output of a process of this channel has ended,
and the client has got before it all that the processes of this channel have written until then; nothing
else comes from that standard output. -/
theorem C80_eof (hrun : Client.steps K H user (Client.start a) sched s = (ok (.inl st), s'))
    (hcut : ∀ n, ¬ Spec.Drops sched (.write n)) {t : List Event} (hl : s'.log = s.log ++ t) :
    ∃ w, s'.out = s.out ++ w ∧ ∀ (peer : ChaCha) (buf : Bytes) (sp : IoSt),
      Spec.keysOf peer = Spec.keysOf a.send → peer.counter = a.send.counter → 35000 ≤ buf.length →
      sp.inp = w → ∀ ps1 p ps2 e,
      delivered K (Spec.sentPayloads t).length peer buf sp = ps1 ++ p :: ps2 →
      Spec.Legal (.channel (.eof e)) p →
      ∃ t0 n t2, t = t0 ++ .proc (.stdout n []) :: .sent p :: t2 ∧
        (Spec.view t).homes n = some e.recipientChannel ∧ (∀ d, .proc (.stdout n d) ∉ t2) ∧
        Spec.dataIn e.recipientChannel ps1 =
          Spec.outputFor (Spec.view t).homes e.recipientChannel t0 := by
  obtain ⟨w, h1, h2, -, h4⟩ := C60_written hrun hcut hl
  refine ⟨w, h1, ?_⟩
  intro peer buf sp hk hcnt hb hi ps1 p ps2 e hd hp
  have hlt := st.send.counter.toNat_lt
  rw [stream_delivered (rest := []) (by rw [hk, hcnt, hi]; exact h2) hb (by rw [hcnt]; omega)] at hd
  obtain ⟨t1, t2, rfl, hps⟩ := sentPayloads_mid hd
  obtain ⟨t0, n, rfl, g2, -, g4⟩ := C44_eof hrun hl hp
  have hl' : s'.log = s.log ++ (t0 ++ (.proc (.stdout n []) :: .sent p :: t2) ++ []) := by
    rw [hl]; simp
  have hmono : ∀ k c, (Spec.view t0).homes k = some c →
      (Spec.view (t0 ++ [.proc (.stdout n [])] ++ .sent p :: t2)).homes k = some c := by
    intro k c h
    have := homes_mono hrun hl' h
    simpa using this
  refine ⟨t0, n, t2, by simp, hmono n _ g2, g4, ?_⟩
  obtain ⟨t0', b, e1, htr, hloc⟩ := (session_whole hrun
    (t := t0 ++ .proc (.stdout n []) :: .sent p :: t2) (by rw [hl]; simp)).local
  cases hloc with
  | stdout k1 k2 k3 =>
    rw [List.append_nil] at e1
    subst e1
    have := Trace.data htr hmono e.recipientChannel
    rw [← this, dataTo_payloads, ← hps]
    congr 1
    simp [Spec.sentPayloads]

/-! ### input -/

/-- a process gets the data of a channel only from its start on -/
theorem next_stdins {v : Spec.View} {e : Event} (h : ∀ m i o x, e ≠ .proc (.started m i o x))
    {c : UInt32} {n : Nat} (hn : (v.next e).stdins c = some n) : v.stdins c = some n := by
  have hset : ∀ {i : UInt32}, Spec.set v.stdins i none c = some n → v.stdins c = some n := by
    intro i hi
    simp only [Spec.set] at hi
    split at hi
    · cases hi
    · exact hi
  cases e with
  | received p =>
    simp only [Spec.View.next] at hn
    cases hm : Spec.msgOf p with
    | none => rw [hm] at hn; exact hn
    | some m =>
      rw [hm] at hn
      simp only [Option.elim] at hn
      unfold Spec.View.receive at hn
      split at hn
      · exact hset hn
      · exact hset hn
      · exact hn
      · exact hn
  | sent p =>
    simp only [Spec.View.next] at hn
    cases hm : Spec.msgOf p with
    | none => rw [hm] at hn; exact hn
    | some m =>
      rw [hm] at hn
      simp only [Option.elim] at hn
      unfold Spec.View.send at hn
      split at hn
      · exact hset hn
      · exact hn
  | auth => exact hn
  | probe => exact hn
  | proc e =>
    cases e with
    | started m i o x => exact absurd rfl (h m i o x)
    | _ => exact hn

theorem next_procs (v : Spec.View) (e : Event) : v.procs ≤ (v.next e).procs := by
  by_cases h : ∃ ty n, e = .proc (.spawn ty n)
  · obtain ⟨ty, n, rfl⟩ := h
    exact Nat.le_succ _
  · rw [(next_homes (fun ty n he => h ⟨ty, n, he⟩)).2]
    exact Nat.le_refl _

theorem view_procs (t u : List Event) : (Spec.view t).procs ≤ (Spec.view (t ++ u)).procs := by
  induction u using snoc_induction with
  | h0 => rw [List.append_nil]; exact Nat.le_refl _
  | h1 u e ih =>
    rw [← List.append_assoc, view_snoc]
    exact Nat.le_trans ih (next_procs _ _)

variable {r : R Client.Stop (Client.St ⊕ Unit)}

/-- where a process is started -/
theorem started_at (hrun : Client.steps K H user (Client.start a) sched s = (r, s'))
    {t1 t2 : List Event} {n : Nat} {i o x : Bool}
    (hl : s'.log = s.log ++ (t1 ++ .proc (.started n i o x) :: t2)) :
    ∃ t0 q req ty peer, t1 = t0 ++ [.received q] ++ [.proc (.spawn ty n)] ∧
      Spec.Legal (.channel (.request req)) q ∧ (Spec.view t0).procs = n ∧
      (Spec.view t0).peers req.recipientChannel = some peer ∧
      Spec.view t1 = { Spec.view t0 with
        current := some req.recipientChannel
        procs := n + 1
        homes := Spec.set (Spec.view t0).homes n (some peer) } := by
  obtain ⟨t0, q, req, -, ty, rfl, -⟩ := C43_started hrun hl
  obtain ⟨t0', q', req', y, peer, h1, h2, h3, -, -, h6⟩ := C43_spawn hrun
    (t1 := t0 ++ [.received q]) (ty := ty) (n := n) (t2 := .proc (.started n i o x) :: t2)
    (by rw [hl]; simp)
  obtain ⟨h0, h1⟩ := List.append_inj' h1 rfl
  cases h1
  subst h0
  refine ⟨t0, q, req', ty, peer, by simp, h2, h6.symm, h3, ?_⟩
  have e : t0 ++ [.received q, .proc (.spawn ty n)] = t0 ++ [.received q] ++ [.proc (.spawn ty n)] := by
    simp
  rw [e, view_snoc, view_snoc]
  simp only [Spec.View.next, h2.msgOf rfl, Option.elim, Spec.View.receive, Option.bind, h3, ← h6]

/-- processes that get data have been asked for -/
theorem stdins_lt (hrun : Client.steps K H user (Client.start a) sched s = (r, s')) {t : List Event} :
    ∀ {u : List Event}, s'.log = s.log ++ (t ++ u) → ∀ c n, (Spec.view t).stdins c = some n →
      n < (Spec.view t).procs := by
  induction t using snoc_induction with
  | h0 => intro u _ c n h; cases h
  | h1 t e ih =>
    intro u hl c n h
    have hl' : s'.log = s.log ++ (t ++ e :: u) := by rw [hl]; simp
    rw [view_snoc] at h ⊢
    by_cases he : ∃ m i o x, e = .proc (.started m i o x)
    · obtain ⟨m, i, o, x, rfl⟩ := he
      obtain ⟨t0, q, req, ty, peer, -, -, h3, -, h5⟩ := started_at hrun hl'
      have hp : (Spec.view t).procs = m + 1 := by rw [h5]
      have hc : (Spec.view t).current = some req.recipientChannel := by rw [h5]
      have hold := ih hl' c n
      simp only [Spec.View.next, hc, Option.elim, Spec.set] at h ⊢
      split at h
      · split at h
        · cases h; omega
        · cases h
      · exact hold h
    · exact Nat.lt_of_lt_of_le (ih hl' c n (next_stdins (fun m i o x h => he ⟨m, i, o, x, h⟩) h))
        (next_procs _ _)

/-- no process gets data before it is asked for -/
theorem inputs_before (hrun : Client.steps K H user (Client.start a) sched s = (r, s')) {t : List Event}
    {n : Nat} : ∀ {u : List Event}, s'.log = s.log ++ (t ++ u) → (Spec.view t).procs ≤ n →
      Spec.inputs n Spec.View.empty t = [] := by
  induction t using snoc_induction with
  | h0 => intros; rfl
  | h1 t e ih =>
    intro u hl hn
    have hl' : s'.log = s.log ++ (t ++ e :: u) := by rw [hl]; simp
    have hn' : (Spec.view t).procs ≤ n := Nat.le_trans (view_procs t [e]) hn
    rw [inputs_append, ih hl' hn', List.nil_append]
    show Spec.inputOf n (Spec.view t) e ++ [] = []
    rw [List.append_nil]
    unfold Spec.inputOf
    split
    · split
      · split
        · rename_i h
          have := stdins_lt hrun hl' _ _ h
          omega
        · rfl
      · rfl
    · rfl

theorem msgOf_legal {p : Bytes} {m : Message} (hm : Spec.isReply m = false)
    (h : Spec.msgOf p = some m) : Spec.Legal m p := by
  rw [msgOf_parse] at h
  split at h
  · rename_i m' hp
    cases h
    exact (Message.parse_iff hm).mp hp
  · cases h

/-- on channel `ch` the client sends only data -/
def Spec.OnlyData (ch : UInt32) (ps : List Bytes) : Prop :=
  ∀ p ∈ ps, ∀ m, Spec.Legal m p → Spec.recipient m = some ch → ∃ d, m = .channel (.data d)

/-- while this is so, the process that was started on the channel is the one that gets the data -/
theorem channel_kept (hrun : Client.steps K H user (Client.start a) sched s = (r, s'))
    {t1 u : List Event} {n : Nat} {o x : Bool} {ch : UInt32} (hch : (Spec.view t1).current = some ch) :
    ∀ {t2 : List Event}, s'.log = s.log ++ (t1 ++ .proc (.started n true o x) :: u ++ t2) →
    Spec.OnlyData ch (Spec.payloads u) →
    (∀ c, (Spec.view (t1 ++ .proc (.started n true o x) :: u)).stdins c = some n ↔ c = ch) ∧
    (Spec.view (t1 ++ .proc (.started n true o x) :: u)).peers ch ≠ none ∧
    Spec.inputs n (Spec.view (t1 ++ [.proc (.started n true o x)])) u =
      Spec.dataIn ch (Spec.payloads u) := by
  induction u using snoc_induction with
  | h0 =>
    intro t2 hl _
    obtain ⟨t0, q, req, ty, peer, h1, h2, h3, h4, h5⟩ := started_at hrun
      (t1 := t1) (t2 := t2) (n := n) (i := true) (o := o) (x := x) (by rw [hl]; simp)
    have hcur : req.recipientChannel = ch := by rw [h5] at hch; exact Option.some.inj hch
    subst hcur
    have hst : ∀ c, (Spec.view t1).stdins c ≠ some n := by
      intro c hc
      rw [h5] at hc
      have := stdins_lt hrun (t := t0) (u := [.received q] ++ [.proc (.spawn ty n)] ++
        .proc (.started n true o x) :: t2) (by rw [hl, h1]; simp) c n hc
      omega
    rw [view_snoc]
    refine ⟨?_, ?_, rfl⟩
    · intro c
      simp only [Spec.View.next, hch, Option.elim, Spec.set, if_true]
      split
      · rename_i h; exact ⟨fun _ => h, fun _ => rfl⟩
      · rename_i h; exact ⟨fun h' => absurd h' (hst c), fun h' => absurd h' h⟩
    · simp only [Spec.View.next, hch, Option.elim]
      rw [h5, h4]
      simp
  | h1 u e ih =>
    intro t2 hl ho
    have ho' : Spec.OnlyData ch (Spec.payloads u) := fun p hp =>
      ho p (by rw [payloads_append]; exact List.mem_append_left _ hp)
    have hl' : s'.log = s.log ++ (t1 ++ .proc (.started n true o x) :: u ++ e :: t2) := by
      rw [hl]; simp
    obtain ⟨i1, i2, i3⟩ := ih hl' ho'
    have hin : Spec.inputs n (Spec.view (t1 ++ [.proc (.started n true o x)])) (u ++ [e]) =
        Spec.dataIn ch (Spec.payloads u) ++
          Spec.inputOf n (Spec.view (t1 ++ .proc (.started n true o x) :: u)) e := by
      rw [inputs_append, i3, ← view_append]
      show _ ++ (Spec.inputOf n _ e ++ []) = _
      rw [List.append_nil]
      congr 2
      simp
    rw [hin, payloads_append, dataIn_append, show t1 ++ .proc (.started n true o x) :: (u ++ [e]) =
      (t1 ++ .proc (.started n true o x) :: u) ++ [e] by simp, view_snoc]
    generalize hV : t1 ++ .proc (.started n true o x) :: u = T at *
    have set_ne : ∀ {β : Type} {f : UInt32 → β} {i : UInt32} {v : β}, i ≠ ch → Spec.set f i v ch = f ch := by
      intro β f i v h
      simp only [Spec.set]
      rw [if_neg (Ne.symm h)]
    have set_st : ∀ {i : UInt32} {v : Option Nat}, i ≠ ch → v ≠ some n → ∀ c,
        (Spec.set (Spec.view T).stdins i v c = some n ↔ c = ch) := by
      intro i v h hv c
      simp only [Spec.set]
      split
      · rename_i hc
        exact ⟨fun h' => absurd h' hv, fun h' => absurd (hc.symm.trans h') h⟩
      · exact i1 c
    cases e with
    | received p =>
      have ho1 : ∀ m, Spec.Legal m p → Spec.recipient m = some ch → ∃ d, m = .channel (.data d) :=
        ho p (by rw [payloads_append]; exact List.mem_append_right _ (by simp [Spec.payloads]))
      refine and_assoc.mp ⟨?_, ?_⟩
      · simp only [Spec.View.next]
        cases hm : Spec.msgOf p with
        | none => exact ⟨i1, i2⟩
        | some m =>
          simp only [Option.elim]
          unfold Spec.View.receive
          split
          · rename_i c
            have hc : c.recipientChannel ≠ ch := by
              intro h
              obtain ⟨d, hd⟩ := ho1 _ (msgOf_legal rfl hm) (congrArg some h)
              cases hd
            exact ⟨set_st hc (by simp), fun h => i2 ((set_ne hc).symm.trans h)⟩
          · rename_i c
            have hc : c.recipientChannel ≠ ch := by
              intro h
              obtain ⟨d, hd⟩ := ho1 _ (msgOf_legal rfl hm) (congrArg some h)
              cases hd
            exact ⟨set_st hc (by simp), i2⟩
          · exact ⟨i1, i2⟩
          · exact ⟨i1, i2⟩
      · congr 1
        show _ = Spec.dataIn ch [p]
        simp only [Spec.inputOf, Spec.dataIn, List.flatMap_cons, List.flatMap_nil, List.append_nil]
        cases Spec.msgOf p with
        | none => rfl
        | some m =>
          cases m with
          | channel m =>
            cases m with
            | data d => simp only [i1]
            | _ => rfl
          | _ => rfl
    | sent p =>
      refine and_assoc.mp ⟨?_, rfl⟩
      simp only [Spec.View.next]
      cases hm : Spec.msgOf p with
      | none => exact ⟨i1, i2⟩
      | some m =>
        simp only [Option.elim]
        unfold Spec.View.send
        split
        · rename_i c
          have hc : c.senderChannel ≠ ch := by
            intro h
            obtain ⟨t0, q, oo, h1, h2, -, -, -, -, h7⟩ := C40_confirmation hrun hl' (msgOf_legal rfl hm)
            apply i2
            rw [← h7.1, h, h1, view_snoc]
            simp only [Spec.View.next, h2.msgOf rfl, Option.elim, Spec.View.receive]
          exact ⟨set_st hc (by simp), fun h => i2 ((set_ne hc).symm.trans h)⟩
        · exact ⟨i1, i2⟩
    | auth => exact ⟨i1, i2, rfl⟩
    | probe => exact ⟨i1, i2, rfl⟩
    | proc e =>
      cases e with
      | started m i o' x' =>
        refine and_assoc.mp ⟨?_, rfl⟩
        obtain ⟨t0, q, req, ty, peer, h1, h2, h3, h4, h5⟩ := started_at hrun hl'
        have hcur : (Spec.view T).current = some req.recipientChannel := by rw [h5]
        have hst : (Spec.view T).stdins = (Spec.view t0).stdins := by rw [h5]
        have hlt := stdins_lt hrun (t := t0) (u := [.received q] ++ [.proc (.spawn ty m)] ++
          .proc (.started m i o' x') :: t2) (by rw [hl', h1]; simp) ch n (by rw [← hst]; exact (i1 ch).mpr rfl)
        have hq : q ∈ Spec.payloads u := by
          rw [h1] at hV
          have last : ∀ l : List Event, l = [] ∨ ∃ l' z, l = l' ++ [z] := fun l => by
            rcases List.eq_nil_or_concat l with h | ⟨l', z, h⟩
            · exact .inl h
            · exact .inr ⟨l', z, by rw [h, List.concat_eq_append]⟩
          rcases last u with rfl | ⟨u', z, rfl⟩
          · have := List.append_inj' hV rfl
            cases this.2
          · rw [show t1 ++ .proc (.started n true o x) :: (u' ++ [z]) =
              (t1 ++ .proc (.started n true o x) :: u') ++ [z] by simp] at hV
            obtain ⟨hV, -⟩ := List.append_inj' hV rfl
            rcases last u' with rfl | ⟨u'', z', rfl⟩
            · have := List.append_inj' hV rfl
              cases this.2
            · rw [show t1 ++ .proc (.started n true o x) :: (u'' ++ [z']) =
                (t1 ++ .proc (.started n true o x) :: u'') ++ [z'] by simp] at hV
              obtain ⟨-, hV⟩ := List.append_inj' hV rfl
              cases hV
              rw [payloads_append, payloads_append]
              simp [Spec.payloads]
        have hne : req.recipientChannel ≠ ch := by
          intro h
          obtain ⟨d, hd⟩ := ho' q hq _ h2 (congrArg some h)
          cases hd
        simp only [Spec.View.next, hcur, Option.elim]
        refine ⟨set_st hne ?_, i2⟩
        split
        · intro h; cases h; omega
        · simp
      | spawn => exact ⟨i1, i2, rfl⟩
      | _ => exact ⟨i1, i2, rfl⟩

/-- C81: a process with a standard input was started on the channel `ch`, and since then the client has sent
on this channel only data. If processes take all they are given with one write, and no future is dropped while
a packet is read or given to a process, the process has got exactly the data in those of the packets sent by
the client for this channel that have been received since its start. -/
theorem C81_input (hrun : Client.steps K H user (Client.start a) sched s = (ok (.inl st), s'))
    (hH : Spec.TakesAll H) (hin : ¬ Spec.Drops sched .stdin) (hread : ∀ n, ¬ Spec.Drops sched (.read n))
    {ps : List Bytes} {rest : Bytes}
    (hs : Spec.Arrive K (Spec.keysOf a.receive) a.receive.counter.toNat ps s.inp rest)
    {t1 t2 : List Event} {n : Nat} {o x : Bool} {ch : UInt32}
    (hl : s'.log = s.log ++ (t1 ++ .proc (.started n true o x) :: t2))
    (hlen : (Spec.payloads (t1 ++ t2)).length ≤ ps.length)
    (hch : (Spec.view t1).current = some ch)
    (honly : Spec.OnlyData ch (ps.drop (Spec.payloads t1).length)) :
    Spec.taken n (t1 ++ .proc (.started n true o x) :: t2) =
      Spec.dataIn ch ((ps.take (Spec.payloads (t1 ++ t2)).length).drop (Spec.payloads t1).length) := by
  have hp : Spec.payloads (t1 ++ .proc (.started n true o x) :: t2) = Spec.payloads (t1 ++ t2) := by
    rw [payloads_append, payloads_append]; rfl
  have hpre : Spec.payloads (t1 ++ t2) = ps.take (Spec.payloads (t1 ++ t2)).length := by
    have := C47_received_partial hrun hread hs hl
    rw [hp] at this
    rcases this with h | ⟨h, -⟩
    · exact List.prefix_iff_eq_take.mp h
    · rw [List.take_of_length_le (Nat.le_of_eq ?_)]
      · exact (h.eq_of_length (Nat.le_antisymm h.length_le hlen)).symm
      · exact Nat.le_antisymm h.length_le hlen
  have h2 : (ps.take (Spec.payloads (t1 ++ t2)).length).drop (Spec.payloads t1).length =
      Spec.payloads t2 := by
    rw [← hpre, payloads_append, List.drop_left]
  rw [h2, (C45_input_partial hrun hH hin hl n).2 _ rfl]
  have ho : Spec.OnlyData ch (Spec.payloads t2) := by
    intro p hpm
    refine honly p ?_
    rw [← h2, List.drop_take] at hpm
    exact List.mem_of_mem_take hpm
  have hl' : s'.log = s.log ++ (t1 ++ .proc (.started n true o x) :: t2 ++ []) := by rw [hl]; simp
  obtain ⟨-, -, h3⟩ := channel_kept hrun hch hl' ho
  obtain ⟨t0, q, req, ty, peer, e1, g2, g3, g4, g5⟩ := started_at hrun hl
  have hb : Spec.inputs n Spec.View.empty (t1 ++ [.proc (.started n true o x)]) = [] := by
    have hq : (Spec.view (t0 ++ [.received q])).procs ≤ n := by
      rw [view_snoc, (next_homes (by simp)).2]
      omega
    rw [inputs_append, e1, inputs_append, inputs_before hrun
      (u := .proc (.spawn ty n) :: .proc (.started n true o x) :: t2) (by rw [hl, e1]; simp) hq]
    rfl
  rw [show t1 ++ .proc (.started n true o x) :: t2 = t1 ++ [.proc (.started n true o x)] ++ t2 by simp,
    inputs_append, hb, List.nil_append]
  exact h3

end

/-! ### a session: a command runs, gets "in", and writes "x" -/

private def e2eSched : List Client.Step := [.message, .message, .message, .event .none (.stdout 0 (some (b! "x")))]
private def e2ePs : List Bytes := [demoP0, demoP1, Spec.encode demoData]
private def e2eRun := Client.steps .flat (demoHandlers demoIo List.length) 1000 (Client.start demoAuth)
  e2eSched (demoState [Spec.encode demoData])

private def e2eT1 : List Event := demoLog0 ++ [.received demoP1, .proc (.spawn (.exec (b! "ls")) 0)]
private def e2eT2 : List Event := [.sent (Spec.encode (Spec.success 5)), .received (Spec.encode demoData),
  .proc (.stdin 0 (b! "in")), .proc (.stdout 0 (b! "x")), .sent (Spec.encode (Spec.dataMsg 5 (b! "x")))]

private theorem pair_of {α β : Type} {x : α × β} {a : α} (h : x.1 = a) : x = (a, x.2) := by
  rw [← h]

private theorem e2e_run : ∃ st s', e2eRun = (ok (.inl st), s') ∧
    s'.log = e2eT1 ++ .proc (.started 0 true true false) :: e2eT2 := by
  have h1 : (match e2eRun.1 with | .ok (.inl _) => true | _ => false) = true := by decide +kernel
  have h2 : e2eRun.2.log = e2eT1 ++ .proc (.started 0 true true false) :: e2eT2 := by decide +kernel
  split at h1
  · rename_i st h
    exact ⟨st, e2eRun.2, pair_of h, h2⟩
  · cases h1

private theorem e2e_view : (Spec.view e2eT1).current = some 0 := by
  rw [view_eval]
  decide +kernel

private theorem e2e_smooth : ∀ cut e, Client.Step.event cut e ∈ e2eSched → cut = .none := by
  intro cut e h
  simp [e2eSched] at h
  exact h.1

/-- the premises of C80 and C81 can be met: this process gets "in", -/
example : Spec.taken 0 (e2eT1 ++ .proc (.started 0 true true false) :: e2eT2) = b! "in" := by
  obtain ⟨st, s', h, hl⟩ := e2e_run
  have hp1 : Spec.payloads e2eT1 = [demoP0, demoP1] := by decide +kernel
  have hp2 : Spec.payloads (e2eT1 ++ e2eT2) = e2ePs := by decide +kernel
  have := C81_input (hrun := h) (fun _ _ d k hk => by cases hk; exact Nat.le_refl _)
    (Spec.Smooth.not_drops e2e_smooth (by simp)) (fun n => Spec.Smooth.not_drops e2e_smooth (by simp))
    (demo_stream (ps := [Spec.encode demoData]) (by simp; decide +kernel)) hl (by rw [hp2]; decide)
    e2e_view (by
      rw [hp1]
      intro p hp m hm hr
      have hp : p = Spec.encode demoData := by simpa using hp
      subst hp
      cases hi : Spec.isReply m with
      | true =>
        cases m <;> simp [Spec.recipient] at hr
        cases hi
      | false =>
        rw [encode_inj hi rfl demo_data_wf hm]
        exact ⟨_, rfl⟩)
  rw [this, hp1, hp2]
  unfold Spec.dataIn
  rw [msgOf_eval]
  decide +kernel

/-- and a client that reads what was written gets "x" for its channel, which it calls 5 -/
example : ∃ st s', e2eRun = (ok (.inl st), s') ∧ ∀ (peer : ChaCha) (buf : Bytes) (sp : IoSt),
    Spec.keysOf peer = Spec.keysOf demoAuth.send → peer.counter = 4 → 35000 ≤ buf.length →
    sp.inp = s'.out → Spec.dataIn 5 (delivered .flat 3 peer buf sp) = b! "x" := by
  obtain ⟨st, s', h, hl⟩ := e2e_run
  obtain ⟨w, h1, h2⟩ := C80_output (t := e2eT1 ++ .proc (.started 0 true true false) :: e2eT2) h
    (fun n => Spec.Smooth.not_drops e2e_smooth (by simp)) hl
  refine ⟨st, s', h, ?_⟩
  intro peer buf sp hk hc hb hi
  have h3 := h2 peer buf sp hk hc hb (hi.trans h1) 5
  rw [show (Spec.sentPayloads (e2eT1 ++ .proc (.started 0 true true false) :: e2eT2)).length = 3 by
    decide +kernel] at h3
  rw [h3, view_eval]
  decide +kernel

end Nora
