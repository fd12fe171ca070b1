import Verif.Props.IntegrityWitness
/-
C73: the numbers of packets.
-/
namespace Nora
open R Server

/-- the sequence number of the `n`-th packet of a direction, counted from 0 and from the first packet of
the connection: 32 bits, wrapping around to zero (RFC 4253, 6.4) -/
def Spec.sequenceNumber (n : Nat) : Nat := n % 2 ^ 32

/-- `w` are the packets with these payloads, sealed with their sequence numbers; the first one is the
`n`-th of its direction -/
def Spec.Numbered (K : Crypto) (k : Spec.Keys) (n : Nat) (ps : List Bytes) (w : Bytes) : Prop :=
  ∃ qs : List (Bytes × Bytes × Bytes), qs.map (·.1) = ps ∧
    (∀ x ∈ qs, Spec.PacketOf .b8 false x.1 x.2.1 x.2.2) ∧
    w = (qs.mapIdx fun i x => Spec.sealed K k (Spec.sequenceNumber (n + i)) x.2.2).flatten

/-- C73 in full: after the three packets of the handshake, packets are sealed with their sequence
numbers. -/
def C73_statement : Prop :=
  ∀ (K : Crypto) (c : ChaCha) (buf : Bytes) (s s' : IoSt) (r : ChaCha × Bytes) (ps : List Bytes),
    c.counter = 3 → s.wcap = none → (∀ p ∈ ps, p.length + 32 ≤ buf.length ∧ p.length + 12 < 4294967296) →
    sendAll K c buf ps s = (ok r, s') →
    ∃ w, s'.out = s.out ++ w ∧ Spec.Numbered K (Spec.keysOf c) 3 ps w

/-- C73, part: up to 2^32 packets in a direction. -/
theorem C73_partial (K : Crypto) (c : ChaCha) (buf : Bytes) (s s' : IoSt) (r : ChaCha × Bytes)
    (ps : List Bytes) (hc : c.counter = 3) (hw : s.wcap = none)
    (hps : ∀ p ∈ ps, p.length + 32 ≤ buf.length ∧ p.length + 12 < 4294967296)
    (hn : 3 + ps.length ≤ 2 ^ 32) (h : sendAll K c buf ps s = (ok r, s')) :
    ∃ w, s'.out = s.out ++ w ∧ Spec.Numbered K (Spec.keysOf c) 3 ps w := by
  have h3 : c.counter.toNat = 3 := by rw [hc]; rfl
  obtain ⟨qs, c1, buf1, s1, h1, h2, h4, h5⟩ := C25_sent_packets K ps c buf s hw (by omega) hps
  rw [h] at h1
  cases h1
  refine ⟨_, h5, qs, h2, h4, congrArg List.flatten (List.mapIdx_eq_mapIdx_iff.mpr ?_)⟩
  intro i hi
  have : qs.length = ps.length := by rw [← h2, List.length_map]
  rw [h3, Spec.sequenceNumber, Nat.mod_eq_of_lt (by omega)]

/-- what is written for many packets, the last one -/
theorem flatten_mapIdx_last {α : Type} (f : Nat → α → Bytes) (l : List α) (h : l ≠ []) :
    ∃ v x, (l.mapIdx f).flatten = v ++ f (l.length - 1) x ∧ x ∈ l := by
  obtain rfl | ⟨l', x, rfl⟩ := List.eq_nil_or_concat l
  · exact absurd rfl h
  · refine ⟨(l'.mapIdx f).flatten, x, ?_, by simp⟩
    rw [List.concat_eq_append, List.mapIdx_append, List.flatten_append]
    simp

/-- primitives whose keystream and tag show the number of the packet -/
def Crypto.numbered : Crypto :=
  { Crypto.trivial with
    stream := fun _ nonce i => nonce.getD (i % 8) 0
    poly := fun key _ => (key ++ List.replicate 16 0).take 16, poly_length := by simp }

/-- the tag shows the number -/
theorem numbered_mac (k : Spec.Keys) (n : Nat) (b : Bytes) :
    (Spec.mac .numbered k n b).take 8 = Spec.u64 n := by
  rfl

/-- the packet of this number cannot be mistaken for one of another number -/
theorem numbered_end {k : Spec.Keys} {n m : Nat} {u v a b : Bytes}
    (h : u ++ Spec.sealed .numbered k n a = v ++ Spec.sealed .numbered k m b) : Spec.u64 n = Spec.u64 m := by
  simp only [Spec.sealed, ← List.append_assoc] at h
  have := (List.append_inj' h (by rw [mac_length, mac_length])).2
  rw [← numbered_mac k n, ← numbered_mac k m, this]

/-- The packets after the first 2^32 are sealed with numbers that do not wrap around. -/
theorem C73_refuted : ¬ C73_statement := by
  intro hall
  obtain ⟨ps, hlen, hmem⟩ : ∃ ps : List Bytes, ps.length = 2 ^ 32 - 2 ∧ ∀ p ∈ ps, p = [2] :=
    ⟨List.replicate (2 ^ 32 - 2) [2], List.length_replicate .., fun p hp => List.eq_of_mem_replicate hp⟩
  have hps : ∀ p ∈ ps, p.length + 32 ≤ (List.replicate 64 (0 : Byte)).length ∧ p.length + 12 < 4294967296 := by
    intro p hp
    rw [hmem p hp]
    decide
  obtain ⟨c, hc⟩ : ∃ c : ChaCha, c.counter = 3 := ⟨⟨[], [], 3, []⟩, rfl⟩
  have h3 : c.counter.toNat = 3 := by rw [hc]; rfl
  obtain ⟨qs, c1, buf1, s1, h1, h2, h4, h5⟩ := C25_sent_packets .numbered ps c (List.replicate 64 0)
    ⟨[], [], none, fun _ => 0, []⟩ rfl (by omega) hps
  obtain ⟨w, h6, qs', h7, h8, rfl⟩ := hall _ _ _ _ _ _ _ hc rfl hps h1
  have e1 : qs.length = 2 ^ 32 - 2 := by rw [← hlen, ← h2, List.length_map]
  have e2 : qs'.length = 2 ^ 32 - 2 := by rw [← hlen, ← h7, List.length_map]
  rw [h6] at h5
  have h5 := List.append_cancel_left h5
  obtain ⟨v, x, g1, _⟩ := flatten_mapIdx_last (fun i (x : Bytes × Bytes × Bytes) =>
    Spec.sealed .numbered (Spec.keysOf c) (c.counter.toNat + i) x.2.2) qs
    (fun h => by rw [h] at e1; simp at e1)
  obtain ⟨v', x', g1', _⟩ := flatten_mapIdx_last (fun i (x : Bytes × Bytes × Bytes) =>
    Spec.sealed .numbered (Spec.keysOf c) (Spec.sequenceNumber (3 + i)) x.2.2) qs'
    (fun h => by rw [h] at e2; simp at e2)
  rw [g1, g1', e1, e2, h3] at h5
  have := numbered_end h5
  rw [show Spec.sequenceNumber (3 + (2 ^ 32 - 2 - 1)) = 0 by rfl,
    show 3 + (2 ^ 32 - 2 - 1) = 2 ^ 32 by rfl] at this
  revert this
  decide

/-- what is written without interruption is numbered -/
theorem written_numbered {K : Crypto} {k : Spec.Keys} {n : Nat} {r r' : Tape} {ps : List Bytes} {w : Bytes}
    {cut fail : Prop} (hcut : ¬ cut) (hfail : ¬ fail) (h : Spec.Written K k cut fail n r ps w r') (hn : n + ps.length ≤ 2 ^ 32) :
    Spec.Numbered K k n ps w := by
  induction h with
  | nil => exact ⟨[], rfl, by simp, rfl⟩
  | @cons n r p j raw m ps w r' h1 h2 h3 h4 h5 h6 ih =>
    simp only [List.length_cons] at hn
    obtain ⟨qs, e1, e2, e3⟩ := ih (by omega)
    have hm : ¬ m < (Spec.sealed K k n raw).length := fun h => (h5 h).elim hcut fun h => hfail h.1
    refine ⟨(p, r.bytes j, raw) :: qs, by rw [List.map_cons, e1], ?_, ?_⟩
    · intro x hx
      rcases List.mem_cons.mp hx with rfl | hx
      · exact h2
      · exact e2 x hx
    · rw [List.mapIdx_cons, List.flatten_cons, List.take_of_length_le (by omega), e3, Nat.add_zero,
        Spec.sequenceNumber, Nat.mod_eq_of_lt (by omega)]
      congr 2
      refine List.mapIdx_eq_mapIdx_iff.mpr fun i hi => ?_
      rw [show n + 1 + i = n + (i + 1) by omega]

/-- C73 for a whole connection, part: if no write was dropped, then all that the server has written after the
handshake are the packets of what it has sent, sealed with their sequence numbers, as long as the connection
has not ended and there were at most 2^32 packets. -/
theorem C73_connection_partial (cfg : Config) (hid : Spec.Fits cfg.ident) (ops : List Op) {i : Nat} {c : Conn}
    {s s1 : IoSt} {as : List Client.Step} {cl : HostClient} {t : List Event}
    (hc : (run cfg ops).conns[i]? = some c)
    (ho : Spec.own i ops = some (s, as)) (hw : ¬ Spec.WriteCut as) (ht : c.io.log = s.log ++ t)
    (hne : t ≠ []) (hh : Host.handleNewClient cfg.K cfg.ident s = (ok cl, s1)) (hp : c.phase ≠ .ended)
    (hn : 3 + (Spec.sentPayloads t).length ≤ 2 ^ 32) :
    ∃ w, c.io.out = s1.out ++ w ∧
      Spec.Numbered cfg.K (Spec.keysOf cl.sendCipher) 3 (Spec.sentPayloads t) w := by
  obtain ⟨s', as', h1, h⟩ := whole_flow cfg hid ops hc
  rw [ho] at h1
  cases h1
  rcases h with ⟨-, h⟩ | ⟨-, r, h2, h3⟩ | ⟨cl', s1', t', w, u, v, r', g1, g2, g3, g4, g5, g6, g7⟩
  · rw [h] at ht
    exact absurd (List.append_cancel_left ((List.append_nil _).trans ht)).symm hne
  · rw [hh] at h2
    cases h2
    exact absurd rfl (h3 cl)
  · rw [hh] at g1
    cases g1
    rw [ht] at g2
    cases List.append_cancel_left g2
    exact ⟨w, g3, written_numbered hw hp g5 hn⟩

-- two packets meet the premises of C73_partial
example : ∃ r s' w, sendAll .trivial ⟨[1], [2], 3, []⟩ (List.replicate 40 0) [[5, 6], [7]]
      { inp := [], out := [], wcap := none, rng := fun i => UInt8.ofNat i, log := [] } = (ok r, s') ∧
    s'.out = w ∧ Spec.Numbered .trivial ⟨[1], [2]⟩ 3 [[5, 6], [7]] w := by
  obtain ⟨c1, buf1, rng1, wire, h, -⟩ := C22_round_trip .trivial [[5, 6], [7]] ⟨[1], [2], 3, []⟩
    (List.replicate 40 0) { inp := [], out := [], wcap := none, rng := fun i => UInt8.ofNat i, log := [] }
    rfl (by decide) (by decide)
  obtain ⟨w, h1, h2⟩ := C73_partial _ _ _ _ _ _ _ rfl rfl (by decide) (by decide) h
  exact ⟨_, _, w, h, h1, h2⟩

-- the connection of `whole_run` meets those of C73_connection_partial
example : ∃ (ops : List Op) (conn : Conn) (c : HostClient) (s1 : IoSt) (w : Bytes),
    (run wholeConfig ops).conns[0]? = some conn ∧
    Host.handleNewClient .flat (b! "SSH-2.0-nora") (clientState wholePayloads [9]) = (ok c, s1) ∧
    conn.io.out = s1.out ++ w ∧ Spec.Numbered .flat (Spec.keysOf c.sendCipher) 3
      [Spec.acceptReply, Spec.failureReply, Spec.successReply,
        Spec.encode (Spec.confirm 0 demoOpen), Spec.encode (Spec.success 5)] w := by
  obtain ⟨ops, m, st, io, -, h1, h2, h3⟩ := whole_run
  obtain ⟨c, s1, g1, g2, -, g4⟩ := flat_session wholePayloads [9]
  obtain ⟨w, k1, k2⟩ := C73_connection_partial wholeConfig (by decide) ops (t := wholeLog) h2 h1
    (by
      rintro ⟨n, e, h⟩
      cases List.eq_of_mem_replicate h) (by rw [h3]; rfl) (by simp [wholeLog]) g1 (by simp) (by decide)
  exact ⟨ops, _, c, s1, w, h2, g1, k1, k2⟩

end Nora
