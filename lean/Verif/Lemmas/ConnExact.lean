import Verif.Lemmas.ConnExec
/-
A packet has exactly one effect, and it is the one of the specification.
-/
namespace Nora
open R

section
variable {H : ConnHandlers} {user : Nat} {l0 t : List Event}

theorem LeastFree.unique {v : Spec.View} {i j : UInt32} (hi : Spec.LeastFree v i)
    (hj : Spec.LeastFree v j) : i = j := by
  rcases Nat.lt_trichotomy i.toNat j.toNat with h | h | h
  · exact absurd hi.1 (hj.2 i h)
  · exact UInt32.toNat_inj.mp h
  · exact absurd hj.1 (hi.2 j h)

theorem runs_declined {q : SessionRequest} {ty : SpawnType} (h : Spec.runs q = some ty) :
    Spec.declined q = false := by
  cases q <;> first | rfl | cases h

/-- a packet is answered in one way only -/
theorem React.unique {q : Bytes} {m : Message} {b b' : List Event} (h : React H user l0 t q m b)
    (h' : React H user l0 t q m b') : b = b' := by
  cases h with
  | opened h1 =>
    cases h' with
    | opened h2 => rw [LeastFree.unique h1 h2]
  | run h1 h2 h3 h4 =>
    cases h' with
    | run g1 g2 g3 g4 =>
      cases Asks.unique h2 g2
      rw [h3] at g3
      cases g3
      rw [h4] at g4
      cases g4
      rw [h1] at g1
      cases g1
      rfl
    | decline g1 g2 g3 =>
      cases Asks.unique h2 g2
      rw [runs_declined h3] at g3
      cases g3
  | decline h1 h2 h3 =>
    cases h' with
    | run g1 g2 g3 g4 =>
      cases Asks.unique h2 g2
      rw [runs_declined g3] at h3
      cases h3
    | decline g1 g2 g3 =>
      rw [h1] at g1
      cases g1
      rfl
  | data h1 h2 h3 =>
    cases h' with
    | data g1 g2 g3 =>
      rw [h2] at g2
      cases g2
      rw [h3] at g3
      cases g3
      rfl
  | eof => cases h'; rfl
  | close => cases h'; rfl
  | ignore => cases h'; rfl

theorem Reaction.unique {q : Bytes} {b b' : List Event} (h : Spec.Reaction H user l0 t q b)
    (h' : Spec.Reaction H user l0 t q b') : b = b' := by
  obtain ⟨m, hm, hq⟩ := Reaction.legal h
  exact React.unique (Reaction.to h hm hq) (Reaction.to h' hm hq)

/-- the packets that end a session, and how -/
abbrev Spec.FinalPacket (H : ConnHandlers) (user : Nat) (l0 t : List Event) (q : Bytes)
    (r : R Client.Stop (Client.St ⊕ Unit)) (u : List Event) : Prop :=
  Spec.Ending H user (fun _ => False) False False False False l0 t r (.received q :: u)

/-- `Spec.FinalPacket` for a message -/
inductive FinalMsg (H : ConnHandlers) (user : Nat) (l0 t : List Event) (q : Bytes) :
    Message → R Client.Stop (Client.St ⊕ Unit) → List Event → Prop
  | disconnect {d} : FinalMsg H user l0 t q (.disconnect d) (ok (.inr ())) []
  | fatal {m} : FatalMsg (Spec.view t) m → FinalMsg H user l0 t q m R.panic []
  | spawnFails {r x ty peer} : (Spec.view t).peers r.recipientChannel = some peer → Spec.Asks r x →
    Spec.runs x = some ty → (∀ io, H.spawn (l0 ++ t ++ [.received q]) user ty ≠ ok io) →
    FinalMsg H user l0 t q (.channel (.request r)) R.panic [.proc (.spawn ty (Spec.view t).procs)]
  | writeFails {d n} : (Spec.view t).stdins d.recipientChannel = some n →
    (∀ k, H.write (l0 ++ t ++ [.received q]) n d.data ≠ ok k) →
    FinalMsg H user l0 t q (.channel (.data d)) R.panic []

theorem FinalPacket.to {q : Bytes} {r : R Client.Stop (Client.St ⊕ Unit)} {u : List Event} {m : Message}
    (h : Spec.FinalPacket H user l0 t q r u) (hm : Spec.isReply m = false) (hq : Spec.Legal m q) :
    FinalMsg H user l0 t q m r u := by
  unfold Spec.FinalPacket at h
  generalize hb : Event.received q :: u = b at h
  cases h with
  | disconnect g => cases hb; rw [hq.unique hm rfl g]; exact .disconnect
  | lost g => exact g.elim
  | write g => exact g.elim
  | fatal g => cases hb; exact .fatal (FatalPacket.to g hm hq)
  | spawnFails g1 g2 g3 g4 g5 => cases hb; rw [hq.unique hm rfl g1]; exact .spawnFails g2 g3 g4 g5
  | writeFails g1 g2 g3 => cases hb; rw [hq.unique hm rfl g1]; exact .writeFails g2 g3
  | readFails g => exact g.elim
  | overflow g => exact g.elim
  | sendOverflow g => exact g.elim

/-- a packet that is handled does not end the session -/
theorem Reaction.not_fatal {q : Bytes} {r : R Client.Stop (Client.St ⊕ Unit)} {b u : List Event}
    (h : Spec.Reaction H user l0 t q b) (hf : Spec.FinalPacket H user l0 t q r u) : False := by
  obtain ⟨m, hm, hq⟩ := Reaction.legal h
  have h' := Reaction.to h hm hq
  cases FinalPacket.to hf hm hq with
  | disconnect => cases h'
  | fatal g => exact React.not_fatal h' g
  | spawnFails g1 g2 g3 g4 =>
    cases h' with
    | run k1 k2 k3 k4 =>
      cases Asks.unique g2 k2
      rw [g3] at k3
      cases k3
      exact g4 _ k4
    | decline k1 k2 k3 =>
      cases Asks.unique g2 k2
      rw [runs_declined g3] at k3
      cases k3
  | writeFails g1 g2 =>
    cases h' with
    | data k1 k2 k3 =>
      rw [g1] at k2
      cases k2
      exact g2 _ k3

/-- it ends the session in one way only -/
theorem FinalPacket.unique {q : Bytes} {r r' : R Client.Stop (Client.St ⊕ Unit)} {u u' : List Event}
    (h : Spec.FinalPacket H user l0 t q r u) (h' : Spec.FinalPacket H user l0 t q r' u') : r = r' ∧ u = u' := by
  have legal : ∀ {r u}, Spec.FinalPacket H user l0 t q r u →
      (∃ m, Spec.isReply m = false ∧ Spec.Legal m q) ∨
      (r = R.panic ∧ u = []) := by
    intro r u h
    unfold Spec.FinalPacket at h
    generalize hb : Event.received q :: u = b at h
    cases h with
    | disconnect g => cases hb; exact .inl ⟨_, rfl, g⟩
    | lost g => exact g.elim
    | write g => exact g.elim
    | fatal g => cases hb; exact .inr ⟨rfl, rfl⟩
    | spawnFails g1 => cases hb; exact .inl ⟨_, rfl, g1⟩
    | writeFails g1 => cases hb; exact .inl ⟨_, rfl, g1⟩
    | readFails g => exact g.elim
    | overflow g => exact g.elim
    | sendOverflow g => exact g.elim
  have both : ∀ {m}, Spec.isReply m = false → Spec.Legal m q → r = r' ∧ u = u' := by
    intro m hm hq
    have f1 := FinalPacket.to h hm hq
    have f2 := FinalPacket.to h' hm hq
    have sp : ∀ {rq x ty peer}, m = .channel (.request rq) →
        (Spec.view t).peers rq.recipientChannel = some peer → Spec.Asks rq x →
        Spec.runs x = some ty → ¬ FatalMsg (Spec.view t) m := by
      intro rq x ty peer e g1 g2 g3 hf
      subst e
      cases hf with
      | unsupported h => cases h
      | request h => rw [g1] at h; cases h
      | badRequest h => exact h _ g2
      | otherRequest h1 h2 => cases Asks.unique g2 h1; rw [g3] at h2; cases h2
    cases f1 with
    | disconnect =>
      cases f2 with
      | disconnect => exact ⟨rfl, rfl⟩
      | fatal g => cases g with | unsupported g => cases g
    | fatal g =>
      cases f2 with
      | disconnect => cases g with | unsupported g => cases g
      | fatal => exact ⟨rfl, rfl⟩
      | spawnFails k1 k2 k3 => exact absurd g (sp rfl k1 k2 k3)
      | writeFails => exact ⟨rfl, rfl⟩
    | spawnFails k1 k2 k3 =>
      cases f2 with
      | fatal g => exact absurd g (sp rfl k1 k2 k3)
      | spawnFails j1 j2 j3 =>
        cases Asks.unique k2 j2
        rw [k3] at j3
        cases j3
        exact ⟨rfl, rfl⟩
    | writeFails =>
      cases f2 with
      | fatal => exact ⟨rfl, rfl⟩
      | writeFails => exact ⟨rfl, rfl⟩
  rcases legal h with ⟨m, hm, hq⟩ | ⟨rfl, rfl⟩
  · exact both hm hq
  · rcases legal h' with ⟨m, hm, hq⟩ | ⟨rfl, rfl⟩
    · exact both hm hq
    · exact ⟨rfl, rfl⟩

end

section
variable {K : Crypto} {H : ConnHandlers} {user : Nat} {a : Authenticated} {sched : List Client.Step}
  {s s' : IoSt} {st : Client.St} {t : List Event}

/-- the next packet is handled, or ends the session -/
theorem exec_outcome (hrun : Client.steps K H user (Client.start a) sched s = (ok (.inl st), s'))
    (hl : s'.log = s.log ++ t) (hsm : Spec.Smooth sched) (hw : s.wcap = none) (hc : Spec.Fresh a t)
    {ps : List Bytes} {rest q : Bytes}
    (hs : Spec.Arrive K (Spec.keysOf a.receive) a.receive.counter.toNat ps s.inp rest)
    (hq : ps[(Spec.payloads t).length]? = some q) :
    (∃ st2 s2 b, Client.steps K H user (Client.start a) (sched ++ [.message]) s = (ok (.inl st2), s2) ∧
      s2.log = s.log ++ (t ++ .received q :: b) ∧ Spec.Reaction H user s.log t q b) ∨
    (∃ r s2 u, Client.steps K H user (Client.start a) (sched ++ [.message]) s = (r, s2) ∧
      s2.log = s.log ++ (t ++ .received q :: u) ∧ Spec.FinalPacket H user s.log t q r u) := by
  obtain ⟨ht, hg⟩ := good_of hrun hl
  obtain ⟨c', buf', s1, h2, h3⟩ := exec_recv hrun hl hsm hc hs hq
  have h3 := h3 .none (by simp)
  rw [steps_snoc hrun]
  obtain ⟨u, hu⟩ := exec_logged hrun hl hsm hc hs hq
  rw [steps_snoc hrun] at hu
  have hu : (Client.message K H user .none st s').2.log = _ := hu
  have hm := message_cases hg (cut := .none) (.inl rfl)
  show (∃ st2 s2 b, Client.message K H user .none st s' = _ ∧ _) ∨
    (∃ r s2 u, Client.message K H user .none st s' = _ ∧ _)
  have hm : Stepped (Ctx.of K H user a sched s) t .none (Client.message K H user .none st s') := hm
  generalize Client.message K H user .none st s' = y at hm hu
  cases hm with
  | next hb hg' =>
    rename_i st2 b s2
    have hlog := hg'.link.log
    have hb2 : b = .received q :: u := by
      have : s.log ++ (t ++ b) = s.log ++ (t ++ .received q :: u) := hlog.symm.trans hu
      exact List.append_cancel_left (List.append_cancel_left this)
    subst hb2
    rcases Block.packet_inv hb with h | ⟨_, _, _, _, g1, _⟩ | ⟨_, _, g1, _⟩
    · exact .inl ⟨st2, s2, u, rfl, hu, h⟩
    · exact absurd g1 (hsm.not_drops (by simp))
    · exact absurd g1 (hsm.not_drops (by simp))
  | dropped h => exact absurd rfl h
  | cutRead h => exact absurd rfl h
  | same hg' =>
    have : s.log ++ t = s.log ++ (t ++ .received q :: u) := hg'.link.log.symm.trans hu
    have := List.append_cancel_left this
    simp at this
  | ended he hlog =>
    rename_i r2 b s2
    have hb2 : b = .received q :: u := by
      have : s.log ++ (t ++ b) = s.log ++ (t ++ .received q :: u) := hlog.symm.trans hu
      exact List.append_cancel_left (List.append_cancel_left this)
    have hO := hc.not (K := K) (H := H) (user := user) (sched := sched) (s := s)
    refine .inr ⟨r2, s2, u, rfl, hu, ?_⟩
    unfold Spec.FinalPacket
    cases he with
    | disconnect h => cases hb2; exact .disconnect h
    | lost => cases hb2
    | write h _ => exact absurd hw h
    | fatal h => cases hb2; exact .fatal h
    | spawnFails h1 h2 h3 h4 h5 => cases hb2; exact .spawnFails h1 h2 h3 h4 h5
    | writeFails h1 h2 h3 => cases hb2; exact .writeFails h1 h2 h3
    | readFails => cases hb2
    | overflow h => exact absurd h hO
    | sendOverflow h _ => exact absurd h hO

/-- the next packet has the effect that it must have -/
theorem exec_reaction (hrun : Client.steps K H user (Client.start a) sched s = (ok (.inl st), s'))
    (hl : s'.log = s.log ++ t) (hsm : Spec.Smooth sched) (hw : s.wcap = none) (hc : Spec.Fresh a t)
    {ps : List Bytes} {rest q : Bytes} {b : List Event}
    (hs : Spec.Arrive K (Spec.keysOf a.receive) a.receive.counter.toNat ps s.inp rest)
    (hq : ps[(Spec.payloads t).length]? = some q) (hb : Spec.Reaction H user s.log t q b) :
    ∃ st2 s2, Client.steps K H user (Client.start a) (sched ++ [.message]) s = (ok (.inl st2), s2) ∧
      s2.log = s.log ++ (t ++ .received q :: b) := by
  rcases exec_outcome hrun hl hsm hw hc hs hq with ⟨st2, s2, b', h1, h2, h3⟩ | ⟨r, s2, u, h1, h2, h3⟩
  · cases Reaction.unique hb h3
    exact ⟨st2, s2, h1, h2⟩
  · exact (Reaction.not_fatal hb h3).elim

/-- or ends the session as it must -/
theorem exec_fatal (hrun : Client.steps K H user (Client.start a) sched s = (ok (.inl st), s'))
    (hl : s'.log = s.log ++ t) (hsm : Spec.Smooth sched) (hw : s.wcap = none) (hc : Spec.Fresh a t)
    {ps : List Bytes} {rest q : Bytes} {r : R Client.Stop (Client.St ⊕ Unit)} {u : List Event}
    (hs : Spec.Arrive K (Spec.keysOf a.receive) a.receive.counter.toNat ps s.inp rest)
    (hq : ps[(Spec.payloads t).length]? = some q) (hu : Spec.FinalPacket H user s.log t q r u) :
    ∃ s2, Client.steps K H user (Client.start a) (sched ++ [.message]) s = (r, s2) ∧
      s2.log = s.log ++ (t ++ .received q :: u) := by
  rcases exec_outcome hrun hl hsm hw hc hs hq with ⟨st2, s2, b', h1, h2, h3⟩ | ⟨r', s2, u', h1, h2, h3⟩
  · exact (Reaction.not_fatal h3 hu).elim
  · obtain ⟨rfl, rfl⟩ := FinalPacket.unique hu h3
    exact ⟨s2, h1, h2⟩

end

end Nora
