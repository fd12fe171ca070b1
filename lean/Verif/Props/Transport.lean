import Verif.Lemmas.Cipher
/-
Properties of the encrypted transport: C22-C26. The specification is in Verif/Spec/Cipher.lean.
-/
namespace Nora
open R

/-! ### C22 round trip -/

/-- write a payload -/
def fillWith (payload : Bytes) : Bytes → R OutError (Nat × Bytes) :=
  fun b => ok (payload.length, payload ++ b.drop payload.length)

/-- send payloads one after the other, re-using the buffer -/
def sendAll (K : Crypto) : ChaCha → Bytes → List Bytes → M OutError (ChaCha × Bytes)
  | c, buf, [] => pure (c, buf)
  | c, buf, p :: ps => do
    let (c, buf) ← Out.send K c buf (fillWith p)
    sendAll K c buf ps

/-- receive `n` payloads -/
def recvAll (K : Crypto) : Nat → ChaCha → Bytes →
    M (InError × ChaCha × Bytes) (List Bytes × ChaCha × Bytes)
  | 0, c, buf => pure ([], c, buf)
  | n + 1, c, buf => do
    let (p, c, buf) ← In.recv K c buf
    let (ps, c, buf) ← recvAll K n c buf
    pure (p :: ps, c, buf)

private theorem pad8 {n k : Nat} (h : Spec.LeastPad .b8 false n k) : k < 12 := by
  obtain ⟨h4, ha, hm⟩ := h
  refine Classical.byContradiction fun hc => ?_
  have := hm (k - 8) (by omega) (by simp only [Spec.Aligned, Spec.blockBytes] at *; omega)
  omega

@[simp] private theorem sealed_length (K : Crypto) (k : Spec.Keys) (n : Nat) (raw : Bytes) :
    (Spec.sealed K k n raw).length = raw.length + 16 := by
  simp only [Spec.sealed, List.length_append, sealLength_length, sealBody_length, mac_length,
    List.length_take, List.length_drop]
  omega

/-- C22: what is written for one payload: the sealed packet of this number -/
theorem C22_send_one (K : Crypto) (c : ChaCha) (buf payload : Bytes) (s : IoSt)
    (hw : s.wcap = none) (hfit : payload.length + 32 ≤ buf.length)
    (h32 : payload.length + 12 < 4294967296) (hc : c.counter.toNat + 1 < 2 ^ 64) :
    ∃ padding raw c' buf' rng',
      Spec.PacketOf .b8 false payload padding raw ∧ raw.length + 16 ≤ payload.length + 32 ∧
      Spec.keysOf c' = Spec.keysOf c ∧ c'.counter.toNat = c.counter.toNat + 1 ∧
      buf'.length = buf.length ∧
      Out.send K c buf (fillWith payload) s = (ok (c', buf'),
        { s with out := s.out ++ Spec.sealed K (Spec.keysOf c) c.counter.toNat raw, rng := rng',
                 log := s.log ++ [.sent payload] }) := by
  obtain ⟨k, hk⟩ := leastPad_exists .b8 false payload.length
  have k12 := pad8 hk
  obtain ⟨raw, h1, h2, h3⟩ := Out.send_eq K c buf (fillWith payload) s payload.length k
    (payload ++ (buf.drop 5).drop payload.length) rfl
    (by rw [List.length_append, List.length_drop]; simp; omega) hk (by omega) (by omega) hc
  rw [List.take_left] at h1 h3
  refine ⟨_, raw, c.next (c.sendUses (1 + payload.length + k)),
    Spec.sealed K (Spec.keysOf c) c.counter.toNat raw ++
      (payload ++ (buf.drop 5).drop payload.length).drop (payload.length + k + 16),
    s.rng.skip k, h1, by omega, rfl, ChaCha.next_counter _ _ hc, ?_, ?_⟩
  · len
  · rw [h3]
    simp only [M.writeAll, hw]

/-- C22: a sealed packet at the head of the stream is received, with any amount of padding; exactly its
bytes are consumed -/
theorem C22_recv_framed (K : Crypto) (c : ChaCha) (buf payload raw rest : Bytes) (s : IoSt)
    (h : Spec.Framed .b8 false payload raw) (hfit : raw.length + 16 ≤ buf.length)
    (hc : c.counter.toNat + 1 < 2 ^ 64)
    (hi : s.inp = Spec.sealed K (Spec.keysOf c) c.counter.toNat raw ++ rest) :
    ∃ c' buf', Spec.keysOf c' = Spec.keysOf c ∧ c'.counter.toNat = c.counter.toNat + 1 ∧
      buf'.length = buf.length ∧
      In.recv K c buf s = (ok (payload, c', buf'),
        { s with inp := rest, log := s.log ++ [.received payload] }) := by
  obtain ⟨padding, hb, hmx, h8, h8', hf⟩ := h
  have hlen : raw.length = 5 + payload.length + padding.length := by rw [hb]; simp [Spec.u32]; omega
  simp [Spec.Aligned, Spec.blockBytes] at h8
  have hraw4 : raw.take 4 = Spec.u32 (1 + payload.length + padding.length) := by rw [hb]; rfl
  have hrawd : raw.drop 4 = UInt8.ofNat padding.length :: (payload ++ padding) := by rw [hb]; rfl
  have hsl : s.inp.length = raw.length + 16 + rest.length := by rw [hi]; simp
  rcases In.recv_cases K c buf s (by omega) with ⟨h1, _⟩ | ⟨l, r, n, h1, h2, h3, h4, u, h5⟩
  · omega
  rw [hi, Spec.sealed, hraw4, hrawd, List.append_assoc, List.append_assoc] at h1
  have hinj := List.append_inj h1 (by rw [h2]; simp)
  obtain ⟨e1, e2⟩ := hinj
  have hn : n = 1 + payload.length + padding.length := by
    rw [← e1, sealLength_invol] at h4
    exact u32_inj h3 hf h4.symm
  rcases h5 with ⟨h5, _⟩ | ⟨_, h5, _⟩ | ⟨body, tag, rest', h5, h6, h7, h8', h9⟩
  · omega
  · rw [← e2] at h5
    simp at h5
    omega
  · rw [← e2, List.append_assoc body] at h6
    obtain ⟨e3, e4⟩ := List.append_inj h6 (by simp; omega)
    obtain ⟨e5, e6⟩ := List.append_inj e4 (by rw [h8']; simp)
    have htag : tag = Spec.mac K (Spec.keysOf c) c.counter.toNat (l ++ body) := by
      rw [← e5, e3, e1]
    rcases h9 with ⟨h9, _⟩ | ⟨_, h9, _⟩ | ⟨_, _, h9⟩
    · exact absurd htag h9
    · omega
    · have hplain : Spec.sealBody K (Spec.keysOf c) c.counter.toNat body =
          UInt8.ofNat padding.length :: (payload ++ padding) := by
        rw [← e3, sealBody_invol]
      rcases h9 with ⟨payload', padding', h9, h10, h11, h12⟩ | ⟨e, h9, _⟩
      · rw [hplain, List.cons.injEq] at h9
        have hpl : padding'.length = padding.length := by
          have := congrArg UInt8.toNat h9.1
          rw [UInt8.ofNat_toNat_mod, UInt8.ofNat_toNat_mod] at this
          omega
        obtain ⟨e7, _⟩ := List.append_inj' h9.2 hpl.symm
        rw [← e7, ← e6] at h12
        exact ⟨c.next u, _, rfl, ChaCha.next_counter _ _ hc, by len, h12⟩
      · exfalso
        rcases h9 with ⟨h9, _⟩ | ⟨_, _, h9 | ⟨k, r', h9, h10⟩⟩
        · omega
        · omega
        · rw [hplain, List.cons.injEq] at h9
          rw [← h9.1, UInt8.ofNat_toNat_mod, Nat.mod_eq_of_lt (by omega)] at h10
          omega

/-- C22: a sealed packet at the head of the stream is received; exactly its bytes are consumed -/
theorem C22_recv_one (K : Crypto) (c : ChaCha) (buf payload padding raw rest : Bytes) (s : IoSt)
    (h : Spec.PacketOf .b8 false payload padding raw) (hfit : raw.length + 16 ≤ buf.length)
    (hc : c.counter.toNat + 1 < 2 ^ 64)
    (hi : s.inp = Spec.sealed K (Spec.keysOf c) c.counter.toNat raw ++ rest) :
    ∃ c' buf', Spec.keysOf c' = Spec.keysOf c ∧ c'.counter.toNat = c.counter.toNat + 1 ∧
      buf'.length = buf.length ∧
      In.recv K c buf s = (ok (payload, c', buf'),
        { s with inp := rest, log := s.log ++ [.received payload] }) :=
  C22_recv_framed K c buf payload raw rest s (packetOf_framed h) hfit hc hi

/-- C22: any sequence of payloads sent is received as the same sequence by a peer with the same keys
and the same counter, whatever its buffer holds; the counters of both sides advance alike. -/
theorem C22_round_trip (K : Crypto) (ps : List Bytes) : ∀ (c : ChaCha) (buf : Bytes) (s : IoSt),
    s.wcap = none → c.counter.toNat + ps.length < 2 ^ 64 →
    (∀ p ∈ ps, p.length + 32 ≤ buf.length ∧ p.length + 12 < 4294967296) →
    ∃ c1 buf1 rng1 wire,
      sendAll K c buf ps s = (ok (c1, buf1),
        { s with out := s.out ++ wire, rng := rng1, log := s.log ++ ps.map .sent }) ∧
      c1.counter.toNat = c.counter.toNat + ps.length ∧
      ∀ (c2 : ChaCha) (buf2 rest : Bytes) (s2 : IoSt), Spec.keysOf c2 = Spec.keysOf c →
        c2.counter = c.counter → (∀ p ∈ ps, p.length + 32 ≤ buf2.length) →
        s2.inp = wire ++ rest →
        ∃ c3 buf3, recvAll K ps.length c2 buf2 s2 = (ok (ps, c3, buf3),
            { s2 with inp := rest, log := s2.log ++ ps.map .received }) ∧
          c3.counter.toNat = c1.counter.toNat ∧ Spec.keysOf c3 = Spec.keysOf c1 := by
  induction ps with
  | nil =>
    intro c buf s _ _ _
    refine ⟨c, buf, s.rng, [], ?_, rfl, ?_⟩
    · simp [sendAll]
    · intro c2 buf2 rest s2 hk hc _ hi
      refine ⟨c2, buf2, ?_, by rw [hc], hk⟩
      simp only [List.nil_append] at hi
      simp [recvAll, ← hi]
  | cons p ps ih =>
    intro c buf s hw hc hfit
    simp only [List.length_cons] at hc
    obtain ⟨hp1, hp2⟩ := hfit p (List.mem_cons_self ..)
    obtain ⟨padding, raw, c', buf', rng', g1, g2, g3, g4, g5, g6⟩ :=
      C22_send_one K c buf p s hw hp1 hp2 (by omega)
    obtain ⟨c1, buf1, rng1, wire, i1, i2, i3⟩ := ih c' buf'
      { s with out := s.out ++ Spec.sealed K (Spec.keysOf c) c.counter.toNat raw, rng := rng',
               log := s.log ++ [.sent p] } hw (by rw [g4]; omega)
      (fun q hq => by rw [g5]; exact hfit q (List.mem_cons_of_mem _ hq))
    refine ⟨c1, buf1, rng1, Spec.sealed K (Spec.keysOf c) c.counter.toNat raw ++ wire, ?_, ?_, ?_⟩
    · rw [sendAll, M.bind_ok g6]
      simp only [i1]
      simp
    · rw [i2, g4]; simp; omega
    · intro c2 buf2 rest s2 hk hcc hfit2 hi
      obtain ⟨c2', buf2', j1, j2, j3, j4⟩ := C22_recv_one K c2 buf2 p padding raw (wire ++ rest) s2 g1
        (by have := hfit2 p (List.mem_cons_self ..); omega) (by rw [hcc]; omega)
        (by rw [hi, hk, hcc, List.append_assoc])
      obtain ⟨c3, buf3, k1, k2, k3⟩ := i3 c2' buf2' rest
        { s2 with inp := wire ++ rest, log := s2.log ++ [.received p] }
        (by rw [j1, hk, g3]) (by apply UInt64.toNat_inj.mp; rw [j2, g4, hcc])
        (fun q hq => by rw [j3]; exact hfit2 q (List.mem_cons_of_mem _ hq)) rfl
      refine ⟨c3, buf3, ?_, k2, k3⟩
      rw [List.length_cons, recvAll, M.bind_ok j4]
      simp only
      rw [M.bind_ok k1]
      simp

example : ((sendAll Crypto.trivial ⟨[1], [2], 3, []⟩ (List.replicate 40 0) [[5, 6], [7]]
    { inp := [], out := [], wcap := none, rng := fun i => UInt8.ofNat i, log := [] }).2.out).length =
    56 := by decide +kernel

/-! ### C23 nothing unauthenticated -/

/-- C23: a payload is delivered only if it was inside a packet whose last 16 bytes are the MAC, under
this packet number, of all bytes before them, length field included; the counter is advanced. -/
theorem C23_delivered (K : Crypto) (c c' : ChaCha) (buf payload buf' : Bytes) (s s' : IoSt)
    (h4 : 4 ≤ buf.length) (h : In.recv K c buf s = (ok (payload, c', buf'), s')) :
    ∃ l body padding, l.length = 4 ∧
      s.inp = l ++ body ++ Spec.mac K (Spec.keysOf c) c.counter.toNat (l ++ body) ++ s'.inp ∧
      Spec.sealLength K (Spec.keysOf c) c.counter.toNat l = Spec.u32 body.length ∧
      Spec.sealBody K (Spec.keysOf c) c.counter.toNat body =
        UInt8.ofNat padding.length :: (payload ++ padding) ∧ padding.length < 256 ∧
      body.length < 4294967296 ∧ 4 + body.length + 16 ≤ buf.length ∧
      Spec.keysOf c' = Spec.keysOf c ∧ c'.counter.toNat = c.counter.toNat + 1 ∧
      c.counter.toNat + 1 < 2 ^ 64 ∧ buf'.length = buf.length ∧
      s' = { s with inp := s'.inp, log := s.log ++ [.received payload] } := by
  rcases In.recv_cases K c buf s h4 with ⟨_, e⟩ | ⟨l, r, n, h1, h2, h3, h4', u, h5⟩
  · rw [h] at e; simp at e
  rcases h5 with ⟨_, e⟩ | ⟨_, _, e⟩ | ⟨body, tag, rest', h5, h6, h7, h8, h9⟩
  · rw [h] at e; simp at e
  · rw [h] at e; simp at e
  rcases h9 with ⟨_, e⟩ | ⟨_, _, e⟩ | ⟨ht, hc, ⟨payload', padding, g1, g2, g3, e⟩ | ⟨_, _, e⟩⟩
  · rw [h] at e; simp at e
  · rw [h] at e; simp at e
  · rw [h] at e
    simp only [Prod.mk.injEq, R.ok.injEq] at e
    obtain ⟨⟨rfl, rfl, rfl⟩, rfl⟩ := e
    refine ⟨l, body, padding, h2, ?_, by rw [h4', h7], g1, g2, by omega, by omega, rfl,
      ChaCha.next_counter _ _ hc, hc, ?_, rfl⟩
    · rw [h1, h6, ← ht]; simp
    · simp; omega
  · rw [h] at e; simp at e

/-- C23: if the MAC does not match, the result is an error, the buffer holds the packet as it came
(not decrypted), and neither counter nor keys change. -/
theorem C23_bad_mac (K : Crypto) (c : ChaCha) (buf l body tag rest : Bytes) (s : IoSt)
    (hl : l.length = 4) (ht : tag.length = 16) (hi : s.inp = l ++ body ++ tag ++ rest)
    (hb : body.length < 4294967296)
    (hlen : Spec.sealLength K (Spec.keysOf c) c.counter.toNat l = Spec.u32 body.length)
    (hfit : 4 + body.length + 16 ≤ buf.length)
    (hmac : tag ≠ Spec.mac K (Spec.keysOf c) c.counter.toNat (l ++ body)) :
    ∃ c', Spec.keysOf c' = Spec.keysOf c ∧ c'.counter = c.counter ∧
      In.recv K c buf s = (err (.cipher, c', l ++ body ++ tag ++ buf.drop (4 + body.length + 16)),
        { s with inp := rest }) := by
  rcases In.recv_cases K c buf s (by omega) with ⟨e, _⟩ | ⟨l', r, n, h1, h2, h3, h4', u, h5⟩
  · rw [hi] at e; simp at e; omega
  rw [hi, List.append_assoc, List.append_assoc] at h1
  obtain ⟨rfl, rfl⟩ := List.append_inj h1 (by omega)
  have hn : n = body.length := u32_inj h3 hb (by rw [← h4', hlen])
  subst hn
  rcases h5 with ⟨h5, _⟩ | ⟨_, h5, _⟩ | ⟨body', tag', rest', h5, h6, h7, h8, h9⟩
  · omega
  · simp at h5; omega
  rw [List.append_assoc body'] at h6
  obtain ⟨e, h6⟩ := List.append_inj h6 h7.symm
  rw [← e] at h9
  obtain ⟨rfl, rfl⟩ := List.append_inj h6 (by omega)
  rcases h9 with ⟨_, e⟩ | ⟨e, _⟩ | ⟨e, _⟩
  · exact ⟨c.use u, rfl, rfl, e⟩
  · exact absurd e hmac
  · exact absurd e hmac

/-- C23: in every error case before the MAC was verified the counter does not advance -/
theorem C23_error_counter (K : Crypto) (c c' : ChaCha) (buf buf' : Bytes) (s s' : IoSt) (e : InError)
    (h4 : 4 ≤ buf.length) (h : In.recv K c buf s = (err (e, c', buf'), s'))
    (he : ∀ w, e ≠ .packet w) : c'.counter = c.counter ∧ Spec.keysOf c' = Spec.keysOf c := by
  rcases In.recv_cases K c buf s h4 with ⟨_, e⟩ | ⟨l, r, n, h1, h2, h3, h4', u, h5⟩
  · rw [h] at e
    simp only [Prod.mk.injEq, R.err.injEq] at e
    rw [e.1.2.1]; exact ⟨rfl, rfl⟩
  rcases h5 with ⟨_, e⟩ | ⟨_, _, e⟩ | ⟨body, tag, rest', h5, h6, h7, h8, h9⟩
  · rw [h] at e
    simp only [Prod.mk.injEq, R.err.injEq] at e
    rw [e.1.2.1]; exact ⟨rfl, rfl⟩
  · rw [h] at e
    simp only [Prod.mk.injEq, R.err.injEq] at e
    rw [e.1.2.1]; exact ⟨rfl, rfl⟩
  rcases h9 with ⟨_, e⟩ | ⟨_, _, e⟩ | ⟨_, _, ⟨_, _, _, _, _, e⟩ | ⟨w, _, e⟩⟩
  · rw [h] at e
    simp only [Prod.mk.injEq, R.err.injEq] at e
    rw [e.1.2.1]; exact ⟨rfl, rfl⟩
  · rw [h] at e; simp at e
  · rw [h] at e; simp at e
  · rw [h] at e
    simp only [Prod.mk.injEq, R.err.injEq] at e
    exact absurd e.1.1 (he w)

example : ∃ tag, tag ≠ Spec.mac Crypto.trivial ⟨[1, 9], [2]⟩ 3 [1, 2, 3, 4, 5] ∧ tag.length = 16 :=
  ⟨List.replicate 16 0, by decide, by decide⟩

/-! ### C24 keystream -/

/-- one more packet was sent with this cipher, in any circumstances -/
def SendStep (K : Crypto) (c c' : ChaCha) : Prop :=
  ∃ buf fill s buf' s', Out.send K c buf fill s = (ok (c', buf'), s')

/-- any number of packets were sent -/
inductive SendRun (K : Crypto) (c : ChaCha) : ChaCha → Prop
  | refl : SendRun K c c
  | step {d e : ChaCha} : SendRun K c d → SendStep K d e → SendRun K c e

theorem C24_step_uses (K : Crypto) (c c' : ChaCha) (h : SendStep K c c') :
    c.counter.toNat + 1 < 2 ^ 64 ∧ ∃ m, c' = c.next (c.sendUses m) := by
  obtain ⟨buf, fill, s, buf', s', h⟩ := h
  unfold Out.send at h
  rw [M.bind_run] at h
  cases h1 : M.withRng (Packet.wrap buf c.blockSize false fill) s with
  | mk r s1 =>
  rw [h1] at h
  cases r with
  | err e => simp at h
  | panic => simp at h
  | ok pkt =>
  simp only at h
  rw [M.bind_run, M.lift_run] at h
  cases h2 : (pkt.payload : R OutError Bytes) with
  | err e => simp [h2] at h
  | panic => simp [h2] at h
  | ok payload =>
  simp only [h2] at h
  rw [M.bind_run, M.lift_run] at h
  cases h3 : (pkt.intoRaw tagSize : R OutError Bytes) with
  | err e => simp [h3] at h
  | panic => simp [h3] at h
  | ok raw =>
  simp only [h3] at h
  rw [M.bind_run, M.lift_run] at h
  cases h4 : (c.encrypt K raw : R OutError _) with
  | err e => simp [h4] at h
  | panic => simp [h4] at h
  | ok x =>
  obtain ⟨enc, c1⟩ := x
  simp only [h4] at h
  rw [M.bind_run, M.logEvent_run] at h
  simp only at h
  rw [M.bind_run] at h
  have hcc : c1 = c' := by
    revert h
    split
    · intro h
      simp only [M.pure_run, Prod.mk.injEq, R.ok.injEq] at h
      exact h.1.1
    · intro h; simp at h
    · intro h; simp at h
  subst hcc
  -- the cipher after `encrypt`
  by_cases h16 : 16 ≤ raw.length
  · by_cases h20 : 20 ≤ raw.length
    · by_cases hc : c.counter.toNat + 1 < 2 ^ 64
      · refine ⟨hc, ?_⟩
        rw [← List.take_append_drop (raw.length - 16) raw,
          ChaCha.encrypt_eq K c _ _ (by simp; omega) (by simp; omega) hc] at h4
        simp only [R.ok.injEq, Prod.mk.injEq] at h4
        exact ⟨_, h4.2.symm⟩
      · have e1 : (subP raw.length tagSize : R OutError Nat) = ok (raw.length - 16) := if_pos h16
        have e2 : (splitAtP raw (raw.length - 16) : R OutError _) =
          ok (raw.take (raw.length - 16), raw.drop (raw.length - 16)) := splitAtP_of_le (by omega)
        have e3 : (splitAtP (raw.take (raw.length - 16)) 4 : R OutError _) =
          ok ((raw.take (raw.length - 16)).take 4, (raw.take (raw.length - 16)).drop 4) :=
          splitAtP_of_le (by simp; omega)
        simp [ChaCha.encrypt, e1, e2, e3, ChaCha.apply, ChaCha.applyData, ChaCha.computeTag,
          ChaCha.bump, hc] at h4
    · have e1 : (subP raw.length tagSize : R OutError Nat) = ok (raw.length - 16) := if_pos h16
      have e2 : (splitAtP raw (raw.length - 16) : R OutError _) =
        ok (raw.take (raw.length - 16), raw.drop (raw.length - 16)) := splitAtP_of_le (by omega)
      have e3 : (splitAtP (raw.take (raw.length - 16)) 4 : R OutError _) = R.panic :=
        if_neg (by simp; omega)
      simp [ChaCha.encrypt, e1, e2, e3] at h4
  · have : (subP raw.length tagSize : R OutError Nat) = R.panic := if_neg h16
    simp [ChaCha.encrypt, this] at h4

/-- C24: however many packets of whatever size are sent, no two uses of keystream touch the same block
of the same key and nonce. The two keys of a direction are taken to be different. -/
theorem C24_no_reuse (K : Crypto) (c c' : ChaCha) (h0 : c.uses = []) (hk : c.keyLength ≠ c.keyData)
    (h : SendRun K c c') :
    c'.uses.Pairwise fun u v => ∀ key nonce b,
      ¬ (Spec.Touches u key nonce b ∧ Spec.Touches v key nonce b) := by
  have key : c'.keyLength = c.keyLength ∧ c'.keyData = c.keyData ∧
      (∀ u ∈ c'.uses, ∃ j, j < c'.counter.toNat ∧ u.nonce = Spec.u64 j) ∧
      c'.uses.Pairwise fun u v => ∀ key nonce b,
        ¬ (Spec.Touches u key nonce b ∧ Spec.Touches v key nonce b) := by
    induction h with
    | refl => rw [h0]; simp
    | @step d e _ hs ih =>
      obtain ⟨i1, i2, i3, i4⟩ := ih
      obtain ⟨hc, m, rfl⟩ := C24_step_uses K d e hs
      refine ⟨i1, i2, ?_, ?_⟩
      · rw [ChaCha.next_counter _ _ hc]
        intro u hu
        simp only [ChaCha.next, List.mem_append] at hu
        rcases hu with hu | hu
        · obtain ⟨j, hj, e⟩ := i3 u hu
          exact ⟨j, by omega, e⟩
        · refine ⟨d.counter.toNat, by omega, ?_⟩
          simp only [ChaCha.sendUses, List.mem_cons, List.not_mem_nil, or_false] at hu
          rcases hu with rfl | rfl | rfl <;> rfl
      · simp only [ChaCha.next]
        rw [List.pairwise_append]
        refine ⟨i4, ?_, ?_⟩
        · simp only [ChaCha.sendUses, List.pairwise_cons, List.mem_cons, List.not_mem_nil, or_false,
            List.Pairwise.nil, and_true]
          refine ⟨?_, ?_, ?_⟩
          · rintro v (rfl | rfl) k n b ⟨⟨a1, _⟩, ⟨a2, _⟩⟩
            · exact hk (by rw [← i1, ← i2]; exact a1.trans a2.symm)
            · exact hk (by rw [← i1, ← i2]; exact a1.trans a2.symm)
          · rintro v rfl k n b ⟨⟨_, _, a1, a2⟩, ⟨_, _, a3, a4⟩⟩
            simp only at a1 a2 a3 a4
            omega
          · simp
        · intro u hu v hv k n b ⟨⟨_, a1, _⟩, ⟨_, a2, _⟩⟩
          obtain ⟨j, hj, e⟩ := i3 u hu
          have : v.nonce = Spec.u64 d.counter.toNat := by
            simp only [ChaCha.sendUses, List.mem_cons, List.not_mem_nil, or_false] at hv
            rcases hv with rfl | rfl | rfl <;> rfl
          rw [this] at a2
          rw [e, ← a2] at a1
          have := u64_inj (by have := d.counter.toNat_lt; omega) d.counter.toNat_lt a1
          omega
  exact key.2.2.2

/-- C24: the uses are there at all: each packet uses keystream of the length key, of the data key for
the MAC key and of the data key for everything after the length field -/
theorem C24_uses_complete (K : Crypto) (c : ChaCha) (buf payload : Bytes) (s : IoSt)
    (hw : s.wcap = none) (hfit : payload.length + 32 ≤ buf.length)
    (h32 : payload.length + 12 < 4294967296) (hc : c.counter.toNat + 1 < 2 ^ 64) :
    ∃ c' buf' s' m, Out.send K c buf (fillWith payload) s = (ok (c', buf'), s') ∧
      payload.length + 5 ≤ m ∧
      c'.uses = c.uses ++ [⟨c.keyLength, Spec.u64 c.counter.toNat, 0, 4⟩,
        ⟨c.keyData, Spec.u64 c.counter.toNat, 64, m⟩,
        ⟨c.keyData, Spec.u64 c.counter.toNat, 0, 32⟩] := by
  obtain ⟨k, hk⟩ := leastPad_exists .b8 false payload.length
  have k12 := pad8 hk
  obtain ⟨raw, h1, h2, h3⟩ := Out.send_eq K c buf (fillWith payload) s payload.length k
    (payload ++ (buf.drop 5).drop payload.length) rfl
    (by rw [List.length_append, List.length_drop]; simp; omega) hk (by omega) (by omega) hc
  simp only [M.writeAll, hw] at h3
  exact ⟨c.next (c.sendUses (1 + payload.length + k)), _, _, 1 + payload.length + k, h3,
    by have := hk.1; omega, rfl⟩

/-- the premises of `C24_no_reuse` hold for a cipher after two packets -/
example : ∃ c', SendRun Crypto.trivial ⟨[1], [2], 3, []⟩ c' ∧ c'.uses.length = 6 := by
  let s : IoSt := { inp := [], out := [], wcap := none, rng := fun i => UInt8.ofNat i, log := [] }
  obtain ⟨c1, b1, s1, m1, h1, _, u1⟩ := C24_uses_complete Crypto.trivial ⟨[1], [2], 3, []⟩
    (List.replicate 40 0) [5] s rfl (by decide) (by decide) (by decide)
  obtain ⟨hc, m, e⟩ := C24_step_uses _ _ _ ⟨_, _, _, _, _, h1⟩
  obtain ⟨c2, b2, s2, m2, h2, _, u2⟩ := C24_uses_complete Crypto.trivial c1
    (List.replicate 40 0) [5] s rfl (by decide) (by decide) (by
      rw [e, ChaCha.next_counter _ _ hc]; decide)
  exact ⟨c2, .step (.step .refl ⟨_, _, _, _, _, h1⟩) ⟨_, _, _, _, _, h2⟩, by rw [u2, u1]; rfl⟩

/-! ### C25 prefix -/

/-- Receive until the first failure: the payloads delivered. -/
def delivered (K : Crypto) : Nat → ChaCha → Bytes → IoSt → List Bytes
  | 0, _, _, _ => []
  | n + 1, c, buf, s =>
    match In.recv K c buf s with
    | (.ok (p, c, buf), s) => p :: delivered K n c buf s
    | _ => []

/-- No forgery in the stream `inp`: wherever bytes followed by their MAC under packet number
`start + i` occur in it, they are the `i`-th packet that was sent. -/
def NoForgery (K : Crypto) (k : Spec.Keys) (start : Nat) (raws : List Bytes) (inp : Bytes) : Prop :=
  ∀ pre cov post i, i ≤ raws.length → inp = pre ++ cov ++ Spec.mac K k (start + i) cov ++ post →
    ∃ raw, raws[i]? = some raw ∧
      cov = Spec.sealLength K k (start + i) (raw.take 4) ++ Spec.sealBody K k (start + i) (raw.drop 4)

/-- C25: whatever bytes the network delivers, as long as no MAC in them was forged, the payloads
delivered are a prefix of the payloads sent. -/
theorem C25_prefix (K : Crypto) (c : ChaCha) (buf : Bytes) (s : IoSt) (N : Nat)
    (ps : List (Bytes × Bytes × Bytes)) (h4 : 4 ≤ buf.length)
    (hps : ∀ x ∈ ps, Spec.PacketOf .b8 false x.1 x.2.1 x.2.2)
    (hnf : NoForgery K (Spec.keysOf c) c.counter.toNat (ps.map (·.2.2)) s.inp) :
    delivered K N c buf s <+: ps.map (·.1) := by
  induction N generalizing c buf s ps with
  | zero => exact List.nil_prefix
  | succ N ih =>
    rw [delivered]
    cases h : In.recv K c buf s with
    | mk r s' =>
    cases r with
    | err e => exact List.nil_prefix
    | panic => exact List.nil_prefix
    | ok x =>
      obtain ⟨payload, c', buf'⟩ := x
      simp only
      obtain ⟨l, body, padding, g1, g2, g3, g4, g5, g6, g7, g8, g9, g10, g11, g12⟩ :=
        C23_delivered K c c' buf payload buf' s s' h4 h
      obtain ⟨raw, hraw, hcov⟩ := hnf [] (l ++ body) s'.inp 0 (Nat.zero_le _) (by
        rw [g2]; simp)
      cases ps with
      | nil => simp at hraw
      | cons x ps =>
        obtain ⟨payload0, padding0, raw0⟩ := x
        simp only [List.map_cons, List.getElem?_cons_zero, Option.some.injEq] at hraw
        subst hraw
        have hp := hps _ (List.mem_cons_self ..)
        simp only at hp
        have hb := hp.bytes
        have hraw4 : raw0.take 4 = Spec.u32 (1 + payload0.length + padding0.length) := by
          rw [hb]; rfl
        have hrawd : raw0.drop 4 = UInt8.ofNat padding0.length :: (payload0 ++ padding0) := by
          rw [hb]; rfl
        rw [hraw4, hrawd] at hcov
        obtain ⟨e1, e2⟩ := List.append_inj hcov (by simp [g1])
        have hpay : payload = payload0 := by
          rw [e2, Nat.add_zero, sealBody_invol, List.cons.injEq] at g4
          have hmx := hp.maxPad
          have : padding0.length = padding.length := by
            have := congrArg UInt8.toNat g4.1
            rw [UInt8.ofNat_toNat_mod, UInt8.ofNat_toNat_mod] at this
            omega
          exact (List.append_inj' g4.2 this).1.symm
        subst hpay
        rw [List.map_cons, List.prefix_cons_inj]
        refine ih c' buf' s' ps (by omega) (fun y hy => hps y (List.mem_cons_of_mem _ hy)) ?_
        intro pre cov post i hi hinp
        rw [g8, g9] at *
        have := hnf (l ++ body ++ Spec.mac K (Spec.keysOf c) c.counter.toNat (l ++ body) ++ pre) cov
          post (i + 1) (by simp at hi ⊢; omega) (by
            rw [g2, hinp]
            rw [show c.counter.toNat + 1 + i = c.counter.toNat + (i + 1) by omega]
            simp)
        obtain ⟨raw', r1, r2⟩ := this
        refine ⟨raw', by simpa using r1, ?_⟩
        rw [show c.counter.toNat + 1 + i = c.counter.toNat + (i + 1) by omega]
        exact r2

/-- C25, together with the sender: the packets are those written by `Out::send` -/
theorem C25_sent_packets (K : Crypto) (ps : List Bytes) : ∀ (c : ChaCha) (buf : Bytes) (s : IoSt),
    s.wcap = none → c.counter.toNat + ps.length < 2 ^ 64 →
    (∀ p ∈ ps, p.length + 32 ≤ buf.length ∧ p.length + 12 < 4294967296) →
    ∃ (qs : List (Bytes × Bytes × Bytes)) (c1 : ChaCha) (buf1 : Bytes) (s1 : IoSt),
      sendAll K c buf ps s = (ok (c1, buf1), s1) ∧ qs.map (·.1) = ps ∧
      (∀ x ∈ qs, Spec.PacketOf .b8 false x.1 x.2.1 x.2.2) ∧
      s1.out = s.out ++ (qs.mapIdx fun i x =>
        Spec.sealed K (Spec.keysOf c) (c.counter.toNat + i) x.2.2).flatten := by
  induction ps with
  | nil => intro c buf s _ _ _; exact ⟨[], c, buf, s, rfl, rfl, by simp, by simp⟩
  | cons p ps ih =>
    intro c buf s hw hc hfit
    simp only [List.length_cons] at hc
    obtain ⟨hp1, hp2⟩ := hfit p (List.mem_cons_self ..)
    obtain ⟨padding, raw, c', buf', rng', g1, g2, g3, g4, g5, g6⟩ :=
      C22_send_one K c buf p s hw hp1 hp2 (by omega)
    obtain ⟨qs, c1, buf1, s1, i1, i2, i3, i4⟩ := ih c' buf'
      { s with out := s.out ++ Spec.sealed K (Spec.keysOf c) c.counter.toNat raw, rng := rng',
               log := s.log ++ [.sent p] } hw (by rw [g4]; omega)
      (fun q hq => by rw [g5]; exact hfit q (List.mem_cons_of_mem _ hq))
    refine ⟨(p, padding, raw) :: qs, c1, buf1, s1, ?_, by simp [i2], ?_, ?_⟩
    · rw [sendAll, M.bind_ok g6]; exact i1
    · intro x hx
      rcases List.mem_cons.mp hx with rfl | hx
      · exact g1
      · exact i3 x hx
    · rw [i4, List.mapIdx_cons, g3, g4, List.flatten_cons, Nat.add_zero, ← List.append_assoc]
      simp only [Nat.add_assoc, Nat.add_comm 1, Nat.add_zero]

/-- the premises of `C25_prefix` hold for a packet sent by the server and received unchanged -/
example :
    let raw : Bytes := [0, 0, 0, 8, 6, 5, 1, 2, 3, 4, 5, 6]
    Spec.PacketOf .b8 false [5] [1, 2, 3, 4, 5, 6] raw ∧
    NoForgery Crypto.trivial ⟨[1, 9], [2]⟩ 3 [raw] (Spec.sealed Crypto.trivial ⟨[1, 9], [2]⟩ 3 raw) := by
  refine ⟨⟨by decide, by decide, by decide, by decide, by decide⟩, ?_⟩
  intro pre cov post i hi h
  have key : ∀ (i : Fin 2) (a m : Fin 29),
      (Spec.mac Crypto.trivial ⟨[1, 9], [2]⟩ (3 + i) (((Spec.sealed Crypto.trivial ⟨[1, 9], [2]⟩ 3
        [0, 0, 0, 8, 6, 5, 1, 2, 3, 4, 5, 6]).drop a.val).take m.val) =
        ((Spec.sealed Crypto.trivial ⟨[1, 9], [2]⟩ 3
        [0, 0, 0, 8, 6, 5, 1, 2, 3, 4, 5, 6]).drop (a.val + m.val)).take 16) →
        i.val = 0 ∧ a.val = 0 ∧ m.val = 12 := by
    decide +kernel
  have hl := congrArg List.length h
  simp at hl
  have e1 : cov = ((Spec.sealed Crypto.trivial ⟨[1, 9], [2]⟩ 3
        [0, 0, 0, 8, 6, 5, 1, 2, 3, 4, 5, 6]).drop pre.length).take cov.length := by
    rw [h]; simp
  have e2 : Spec.mac Crypto.trivial ⟨[1, 9], [2]⟩ (3 + i) cov = ((Spec.sealed Crypto.trivial ⟨[1, 9], [2]⟩ 3
        [0, 0, 0, 8, 6, 5, 1, 2, 3, 4, 5, 6]).drop (pre.length + cov.length)).take 16 := by
    rw [h, List.append_assoc, ← List.length_append, List.drop_left, List.take_append_of_le_length
      (by simp), List.take_of_length_le (by simp)]
  rw [show Spec.mac Crypto.trivial ⟨[1, 9], [2]⟩ (3 + i) cov = _ from congrArg _ e1] at e2
  obtain ⟨h1, h2, h3⟩ := key ⟨i, by simp at hi; omega⟩ ⟨pre.length, by omega⟩
    ⟨cov.length, by omega⟩ e2
  simp only at h1 h2 h3
  subst h1
  refine ⟨_, rfl, ?_⟩
  rw [e1, h2, h3]
  decide

/-! ### C26 no panic -/

/-- C26: receiving never panics, for any stream, keys, buffer contents and length of at least 4 bytes
(the counter can be incremented: fewer than 2^64 packets were received). -/
theorem C26_no_panic (K : Crypto) (c : ChaCha) (buf : Bytes) (s : IoSt) (h4 : 4 ≤ buf.length)
    (hc : c.counter.toNat + 1 < 2 ^ 64) : (In.recv K c buf s).1 ≠ R.panic := by
  rcases In.recv_cases K c buf s h4 with ⟨_, e⟩ | ⟨l, r, n, h1, h2, h3, h4', u, h5⟩
  · rw [e]; simp
  rcases h5 with ⟨_, e⟩ | ⟨_, _, e⟩ | ⟨body, tag, rest', h5, h6, h7, h8, h9⟩
  · rw [e]; simp
  · rw [e]; simp
  rcases h9 with ⟨_, e⟩ | ⟨_, h, e⟩ | ⟨_, _, ⟨_, _, _, _, _, e⟩ | ⟨_, _, e⟩⟩
  · rw [e]; simp
  · omega
  · rw [e]; simp
  · rw [e]; simp

/-- C26: the payload does not depend on what was in the buffer, nor on its length -/
theorem C26_not_stale (K : Crypto) (c c1 c2 : ChaCha) (buf1 buf2 buf1' buf2' p1 p2 : Bytes)
    (s s1 s2 : IoSt) (h1 : 4 ≤ buf1.length) (h2 : 4 ≤ buf2.length)
    (e1 : In.recv K c buf1 s = (ok (p1, c1, buf1'), s1))
    (e2 : In.recv K c buf2 s = (ok (p2, c2, buf2'), s2)) : p1 = p2 ∧ s1.inp = s2.inp := by
  obtain ⟨l, body, pad, a1, a2, a3, a4, a5, a6, _⟩ := C23_delivered K c c1 buf1 p1 buf1' s s1 h1 e1
  obtain ⟨l', body', pad', b1, b2, b3, b4, b5, b6, _⟩ :=
    C23_delivered K c c2 buf2 p2 buf2' s s2 h2 e2
  rw [a2] at b2
  simp only [List.append_assoc] at b2
  obtain ⟨rfl, b2⟩ := List.append_inj b2 (by omega)
  rw [a3] at b3
  have hb := u32_inj a6 b6 b3
  obtain ⟨rfl, b2⟩ := List.append_inj b2 hb
  obtain ⟨_, b2⟩ := List.append_inj b2 (by simp)
  refine ⟨?_, b2⟩
  rw [a4, List.cons.injEq] at b4
  have : pad.length = pad'.length := by
    have := congrArg UInt8.toNat b4.1
    rw [UInt8.ofNat_toNat_mod, UInt8.ofNat_toNat_mod] at this
    omega
  exact (List.append_inj' b4.2 this).1

/-- C26: below 4 bytes of buffer it does panic -/
example (K : Crypto) (c : ChaCha) (s : IoSt) : (In.recv K c [1, 2, 3] s).1 = R.panic := rfl

end Nora
