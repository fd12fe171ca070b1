import Verif.Props.Integrity
import Verif.Props.WholeWitness
/-
A concrete connection that meets the premises of C70 and C71.
-/
namespace Nora
open R Server

/-- the input of the server after the handshake -/
def wholeInput : Bytes := conversation 3 wholePayloads ++ [9]

/-- where the tags are, and how much is before each that is covered by it -/
def wholeTags : List (Nat × Nat) := [(28, 28), (88, 44), (156, 52), (208, 36), (260, 36)]

theorem whole_marks : ∀ q : Fin 277, (wholeInput.drop q).take 4 = b! "poly" →
    ∃ x ∈ wholeTags, x.1 = q.val ∧ (wholeInput.drop (q + 4)).take 4 = Spec.u32 x.2 := by
  decide +kernel

theorem whole_tags : ∀ x ∈ wholeTags, ∀ i : Fin 6,
    Spec.mac .flat flatKeys (3 + i) ((wholeInput.drop (x.1 - x.2)).take x.2) = (wholeInput.drop x.1).take 16 →
    (wholePayloads[i.val]?).any (fun p => (wholeInput.drop (x.1 - x.2)).take x.2 ==
      Spec.sealLength .flat flatKeys (3 + i) ((spkt p).take 4) ++
        Spec.sealBody .flat flatKeys (3 + i) ((spkt p).drop 4)) = true := by
  decide +kernel

/-- no packet is forged in this input -/
theorem whole_noForgery : NoForgery .flat flatKeys 3 (wholePayloads.map spkt) wholeInput := by
  intro pre cov post i hi h
  have hl := congrArg List.length h
  rw [show wholeInput.length = 277 by decide +kernel] at hl
  simp only [List.length_append, mac_length] at hl
  have hcov : cov = (wholeInput.drop pre.length).take cov.length := by rw [h]; simp
  have htag : Spec.mac .flat flatKeys (3 + i) cov = (wholeInput.drop (pre.length + cov.length)).take 16 := by
    rw [h, List.append_assoc, ← List.length_append, List.drop_left, List.take_append_of_le_length
      (by simp), List.take_of_length_le (by simp)]
  have hmac : Spec.mac .flat flatKeys (3 + i) cov = b! "poly" ++ (Spec.u32 cov.length ++
      Spec.u64 ((Spec.macKey .flat flatKeys (3 + i) ++ cov).foldl
        (fun a b => (a * 257 + b.toNat + 1) % 2 ^ 64) 0)) := by
    show markedTag _ _ = _
    rw [markedTag, List.append_assoc]
  obtain ⟨x, hx, h1, h2⟩ := whole_marks ⟨pre.length + cov.length, by omega⟩ (by
    have := congrArg (List.take 4) (htag.symm.trans hmac)
    rw [List.take_take] at this
    exact this)
  simp only at h1 h2
  have h3 : Spec.u32 cov.length = Spec.u32 x.2 := by
    rw [← h2]
    have := congrArg (fun l => (l.drop 4).take 4) (htag.symm.trans hmac)
    simp only [List.drop_take, List.take_take, List.drop_drop] at this
    exact this.symm
  have hx2 : ∀ x ∈ wholeTags, x.2 < 100 := by decide
  have h4 := u32_inj (by omega) (by have := hx2 x hx; omega) h3
  have h5 := whole_tags x hx ⟨i, by simp at hi; exact Nat.lt_succ_of_le hi⟩
  rw [show x.1 - x.2 = pre.length by omega, ← h4, h1, ← hcov] at h5
  replace h5 := h5 htag
  simp only at h5
  cases h6 : wholePayloads[i]? with
  | none => rw [h6] at h5; cases h5
  | some p =>
    rw [h6] at h5
    exact ⟨spkt p, by rw [List.getElem?_map, h6]; rfl, beq_iff_eq.mp h5⟩

/-- the packets of the client -/
def wholeSent : List (Bytes × Bytes × Bytes) :=
  wholePayloads.map fun p => (p, List.replicate (4 + (8 - (p.length + 5) % 8) % 8) 0, spkt p)

-- The premises of C70 hold for a connection whose process was started: it was asked for in one of the
-- packets of the client.
example : ∃ y ∈ wholeSent, ∃ req a, Spec.Legal (.channel (.request req)) y.1 ∧ Spec.Asks req a ∧
    Spec.runs a = some (.exec (b! "ls")) := by
  obtain ⟨ops, m, st, io, -, h1, h2, h3⟩ := whole_run
  obtain ⟨c, s1, g1, g2, -, g4⟩ := flat_session wholePayloads [9]
  obtain ⟨j, k, x, y, _, _, _, _, req, a, ty, -, -, hy, -, -, e1, e2, e3, l, e4, -⟩ :=
    C70_process wholeConfig (by decide) ops (t := wholeLog) wholeSent h2 h1
    (by rw [h3]; rfl) g1
    (by
      intro x hx
      obtain ⟨p, hp, rfl⟩ := List.mem_map.mp hx
      have : ∀ p ∈ wholePayloads, Spec.PacketOf .b8 false p
          (List.replicate (4 + (8 - (p.length + 5) % 8) % 8) 0) (spkt p) := by
        intro p hp
        have : p.length ≤ 30000 := by revert p; decide
        refine ⟨?_, ?_, ?_, ?_, ?_⟩
        · rw [List.length_replicate]; rfl
        all_goals first
          | (rw [List.length_replicate]; omega)
          | (rw [List.length_replicate]; show (0 + (1 + p.length + _)) % 8 = 0; omega)
      exact this p hp)
    (by
      have : NoForgery .flat flatKeys 3 (wholeSent.map (·.2.2)) wholeInput := by
        rw [wholeSent, List.map_map]
        exact whole_noForgery
      rw [← g2] at this
      rw [g4]
      exact this)
    (pre := wholeLog.take 12) (post := [.sent (Spec.encode (Spec.success 5))]) (n := 0) rfl
  refine ⟨y, List.mem_of_getElem? hy, req, a, e1, e2, ?_⟩
  have := (List.append_inj' (s₁ := wholeLog.take 10) (s₂ := l)
    (show wholeLog.take 10 ++ [.received demoP1, .proc (.spawn (.exec (b! "ls")) 0)] = _ from e4) rfl).2
  simp only [List.cons.injEq, Event.proc.injEq, ProcEvent.spawn.injEq] at this
  rw [e3, this.2.1.1]

-- Those of C71 hold as well: the client reads these five replies.
example : ∃ (ops : List Op) (conn : Conn) (c : HostClient) (s1 : IoSt) (w : Bytes),
    (run wholeConfig ops).conns[0]? = some conn ∧
    Host.handleNewClient .flat (b! "SSH-2.0-nora") (clientState wholePayloads [9]) = (ok c, s1) ∧
    conn.io.out = s1.out ++ w ∧ ∀ buf : Bytes, 35000 ≤ buf.length →
      delivered .flat 5 { c.sendCipher with counter := 3 } buf
        { inp := w, out := [], wcap := none, rng := fun _ => 0, log := [] } =
        [Spec.acceptReply, Spec.failureReply, Spec.successReply,
          Spec.encode (Spec.confirm 0 demoOpen), Spec.encode (Spec.success 5)] := by
  obtain ⟨ops, m, st, io, -, h1, h2, h3⟩ := whole_run
  obtain ⟨c, s1, g1, g2, -, g4⟩ := flat_session wholePayloads [9]
  obtain ⟨w, k1, k2⟩ := C71_client_reads wholeConfig (by decide) ops (t := wholeLog) h2 h1
    (by
      rintro ⟨n, e, h⟩
      cases List.eq_of_mem_replicate h) (by rw [h3]; rfl) (by simp [wholeLog]) g1
  exact ⟨ops, _, c, s1, w, h2, g1, k1, fun buf hb =>
    (k2 { c.sendCipher with counter := 3 } buf _ rfl rfl hb rfl).2 (by simp)⟩

end Nora
