import Verif.Lemmas.Handshake
import Verif.Props.Transport
import Verif.Spec.Auth
/-
Sending a message through the encrypted transport, and what is common to the parts of a session
after the handshake.
-/
namespace Nora
open R

/-- a payload is parsed as the message it is an encoding of -/
theorem reads_iff {p : Bytes} {m : Message} : Message.parse p = ok m ↔ Spec.Reads p m := by
  cases hm : Spec.isReply m with
  | true => exact ⟨fun h => absurd h (Message.parse_reply hm), fun h => by rw [h.1] at hm; cases hm⟩
  | false => exact (Message.parse_iff hm).trans ⟨fun h => ⟨hm, h⟩, fun h => h.2⟩

theorem ChaCha.encrypt_overflow {ε : Type} (K : Crypto) (c : ChaCha) (data : Bytes)
    (hd : 20 ≤ data.length) (hc : ¬ c.counter.toNat + 1 < 2 ^ 64) :
    (c.encrypt K data : R ε _) = R.panic := by
  have e1 : (subP data.length tagSize : R ε Nat) = ok (data.length - 16) := by
    rw [subP, if_pos (by simp [tagSize]; omega)]; rfl
  have e2 : (splitAtP data (data.length - 16) : R ε _) =
      ok (data.take (data.length - 16), data.drop (data.length - 16)) := splitAtP_of_le (by omega)
  have e3 : (splitAtP (data.take (data.length - 16)) 4 : R ε _) =
      ok ((data.take (data.length - 16)).take 4, (data.take (data.length - 16)).drop 4) :=
    splitAtP_of_le (by len)
  simp only [encrypt, e1, ok_bind, e2, e3, apply_eq, applyData_eq, computeTag_eq, use_keys,
    use_counter, use_keyData, bump, if_neg hc, panic_bind]




theorem leastPad8_lt {n k : Nat} (h : Spec.LeastPad .b8 false n k) : k < 12 := by
  obtain ⟨h4, ha, hm⟩ := h
  refine Classical.byContradiction fun hc => ?_
  have := hm (k - 8) (by omega) (by simp only [Spec.Aligned, Spec.blockBytes] at *; omega)
  omega

theorem fitsBuf_of_le {N n : Nat} (h : n + 32 ≤ N) : Spec.FitsBuf N n := by
  obtain ⟨k, hk⟩ := leastPad_exists .b8 false n
  exact ⟨k, hk, by have := leastPad8_lt hk; omega⟩

theorem not_fitsBuf {N n : Nat} (h : N < n + 25) : ¬ Spec.FitsBuf N n := by
  rintro ⟨k, hk, h'⟩
  have := hk.1
  omega

/-- Sending a message and unwrapping the result, described completely. -/
theorem Server.send_cases (K : Crypto) (c : ChaCha) (buf : Bytes) {m : Message} {e : Bytes}
    (hm : Writes m e) (s : IoSt) (hb : 5 ≤ buf.length) (hb2 : buf.length < 4294967296) :
    (Spec.FitsBuf buf.length e.length ∧ c.counter.toNat + 1 < 2 ^ 64 ∧
      ∃ k raw, Spec.PacketOf .b8 false e (s.rng.bytes k) raw ∧
        Spec.LeastPad .b8 false e.length k ∧
       ((∃ w c' buf', Server.send K c buf m s = (ok (c', buf'), { s with
            rng := s.rng.skip k
            out := s.out ++ Spec.sealed K (Spec.keysOf c) c.counter.toNat raw
            wcap := w
            log := s.log ++ [.sent e] }) ∧
          c'.counter.toNat = c.counter.toNat + 1 ∧ Spec.keysOf c' = Spec.keysOf c ∧
          buf'.length = buf.length ∧ (s.wcap = none → w = none)) ∨
        (s.wcap ≠ none ∧ ∃ s', Server.send K c buf m s = (R.panic, s') ∧ s'.inp = s.inp ∧
          s'.log = s.log ++ [.sent e] ∧
          ∃ n, s'.out = s.out ++ (Spec.sealed K (Spec.keysOf c) c.counter.toNat raw).take n))) ∨
    ((¬ Spec.FitsBuf buf.length e.length ∨ ¬ c.counter.toNat + 1 < 2 ^ 64) ∧
      ∃ s', Server.send K c buf m s = (R.panic, s') ∧ s'.inp = s.inp ∧ s'.log = s.log ∧
        s'.out = s.out) := by
  obtain ⟨k, hk⟩ := leastPad_exists .b8 false e.length
  have hk67 := leastPad_le hk
  have hl : (s.rng.bytes k).length = k := by simp [Tape.bytes]
  by_cases hser : e.length ≤ (buf.drop 5).length
  rotate_left
  · right
    refine ⟨.inl (not_fitsBuf (by simp at hser; omega)), s, ?_, rfl, rfl, rfl⟩
    have : (Message.write m (buf.drop 5) : R OutError _) = R.panic := by
      rw [Message.write, hm, if_neg hser]; rfl
    have hw : (Packet.wrap buf c.blockSize false (Message.write m) s.rng : R OutError _) =
        R.panic := by
      simp only [Packet.wrap, splitAtP_of_le hb, ok_bind, this, panic_bind]
    rw [Server.send, M.unwrap_run, Out.send, M.bind_panic (s' := s) (by simp only [M.withRng, hw])]
    rfl
  have hw : (Message.write m (buf.drop 5) : R OutError _) =
      ok (e.length, e ++ (buf.drop 5).drop e.length) := by
    rw [Message.write, hm, if_pos hser]; rfl
  have hnl : (e ++ (buf.drop 5).drop e.length).length = (buf.drop 5).length := by
    simp only [List.length_append, List.length_drop] at hser ⊢; omega
  have htake : (e ++ (buf.drop 5).drop e.length).take e.length = e := by simp
  have hwr := Packet.wrap_eq (ε := OutError) (bs := .b8) (mode := false) (rng := s.rng)
    hb hw (by rw [hnl, List.length_drop]; omega) hk
  rw [htake] at hwr
  by_cases hfit : 5 + e.length + k + 16 ≤ buf.length
  · by_cases hc : c.counter.toNat + 1 < 2 ^ 64
    · left
      obtain ⟨raw, hp, hrl, hs⟩ := Out.send_eq K c buf (Message.write m) s e.length k _ hw hnl hk
        hfit (by omega) hc
      rw [htake] at hp hs
      refine ⟨⟨k, hk, hfit⟩, hc, k, raw, hp, hk, ?_⟩
      rcases M.writeAll_cases (Spec.sealed K (Spec.keysOf c) c.counter.toNat raw)
        { s with rng := s.rng.skip k, log := s.log ++ [.sent e] } with ⟨w, hw', hwn⟩ | ⟨hwc, n, hw'⟩
      · left
        rw [hw'] at hs
        refine ⟨w, c.next (c.sendUses (1 + e.length + k)),
          Spec.sealed K (Spec.keysOf c) c.counter.toNat raw ++
            (e ++ (buf.drop 5).drop e.length).drop (e.length + k + 16), ?_,
          ChaCha.next_counter _ _ hc, rfl, ?_, hwn⟩
        · rw [Server.send, M.unwrap_run, hs]
          rfl
        · simp only [List.length_append, List.length_drop, hnl]
          have : (Spec.sealed K (Spec.keysOf c) c.counter.toNat raw).length = raw.length + 16 := by
            simp only [Spec.sealed, List.length_append, sealLength_length, sealBody_length,
              mac_length, List.length_take, List.length_drop]
            omega
          simp only [List.length_append, List.length_drop] at hnl
          omega
      · right
        rw [hw'] at hs
        refine ⟨hwc, { s with
          rng := s.rng.skip k
          out := s.out ++ (Spec.sealed K (Spec.keysOf c) c.counter.toNat raw).take n
          wcap := some 0
          log := s.log ++ [.sent e] }, ?_, rfl, rfl, n, rfl⟩
        rw [Server.send, M.unwrap_run, hs]; rfl
    · right
      refine ⟨.inr hc, { s with rng := s.rng.skip k }, ?_, rfl, rfl, rfl⟩
      rw [if_pos (by omega)] at hwr
      have hp : Spec.PacketOf .b8 false e (s.rng.bytes k)
          (Spec.u32 (1 + e.length + k) ++ UInt8.ofNat k :: (e ++ s.rng.bytes k)) :=
        ⟨by rw [hl], by rw [hl]; exact hk.1, by omega, by rw [hl]; exact hk.2.1,
          by rw [hl]; omega⟩
      generalize hD : (e ++ (buf.drop 5).drop e.length).drop (e.length + k) = D at hwr
      have hD' : 16 ≤ D.length := by rw [← hD]; len
      have e2 := (Packet.wrapRaw_packetOf (ε := OutError) hp D).2.1
      have e3 : (Packet.intoRaw ⟨Spec.u32 (1 + e.length + k) ++ (UInt8.ofNat k ::
          (e ++ (s.rng.bytes k ++ D)))⟩ tagSize : R OutError Bytes) =
          ok (Spec.u32 (1 + e.length + k) ++ (UInt8.ofNat k ::
            (e ++ (s.rng.bytes k ++ D))).take (1 + e.length + k + 16)) :=
        (Packet.asRaw_eq (by omega) _ (by len) 16 (by len)).2
      rw [Server.send, M.unwrap_run, Out.send, M.bind_ok (M.withRng_ok (f := Packet.wrap buf c.blockSize false (Message.write m)) hwr)]
      simp only [List.append_assoc, List.cons_append] at e2
      rw [e2, M.lift_ok_bind, e3, M.lift_ok_bind, ChaCha.encrypt_overflow K c _ (by len) hc]
      rfl
  · right
    have hnf : ¬ Spec.FitsBuf buf.length e.length := by
      rintro ⟨k', hk', h'⟩
      rw [leastPad_unique hk' hk] at h'
      exact hfit h'
    by_cases h2 : 5 + e.length + k ≤ buf.length
    · refine ⟨.inl hnf, { s with rng := s.rng.skip k }, ?_, rfl, rfl, rfl⟩
      rw [if_pos (by omega)] at hwr
      have hp : Spec.PacketOf .b8 false e (s.rng.bytes k)
          (Spec.u32 (1 + e.length + k) ++ UInt8.ofNat k :: (e ++ s.rng.bytes k)) :=
        ⟨by rw [hl], by rw [hl]; exact hk.1, by omega, by rw [hl]; exact hk.2.1,
          by rw [hl]; omega⟩
      generalize hD : (e ++ (buf.drop 5).drop e.length).drop (e.length + k) = D at hwr
      have hD' : D.length < 16 := by rw [← hD]; len
      have e2 := (Packet.wrapRaw_packetOf (ε := OutError) hp D).2.1
      have e3 : (Packet.intoRaw ⟨Spec.u32 (1 + e.length + k) ++ (UInt8.ofNat k ::
          (e ++ (s.rng.bytes k ++ D)))⟩ tagSize : R OutError Bytes) = R.panic := by
        simp only [Packet.intoRaw, Packet.packetLen_u32 (ε := OutError)
          (show 1 + e.length + k < 4294967296 by omega), ok_bind, idxTo]
        rw [if_neg (by simp [tagSize, u32_length]; omega)]
      rw [Server.send, M.unwrap_run, Out.send, M.bind_ok (M.withRng_ok (f := Packet.wrap buf c.blockSize false (Message.write m)) hwr)]
      simp only [List.append_assoc, List.cons_append] at e2
      rw [e2, M.lift_ok_bind, e3]
      rfl
    · refine ⟨.inl hnf, s, ?_, rfl, rfl, rfl⟩
      rw [if_neg (by omega)] at hwr
      rw [Server.send, M.unwrap_run, Out.send,
        M.bind_panic (s' := s) (by simp only [M.withRng]; rw [show c.blockSize = .b8 from rfl, hwr])]
      rfl

/-- Receiving a packet: an error, a delivered payload, or an exhausted packet counter. -/
theorem In.recv_outcome (K : Crypto) (c : ChaCha) (buf : Bytes) (s : IoSt) (h4 : 4 ≤ buf.length) :
    (∃ e i, In.recv K c buf s = (err e, { s with inp := i })) ∨
    (¬ c.counter.toNat + 1 < 2 ^ 64 ∧ ∃ i, In.recv K c buf s = (R.panic, { s with inp := i })) ∨
    (c.counter.toNat + 1 < 2 ^ 64 ∧ ∃ payload c' buf' i,
      In.recv K c buf s = (ok (payload, c', buf'),
        { s with inp := i, log := s.log ++ [.received payload] }) ∧
      i.length + 20 ≤ s.inp.length ∧ c'.counter.toNat = c.counter.toNat + 1 ∧
      Spec.keysOf c' = Spec.keysOf c ∧ buf'.length = buf.length) := by
  rcases In.recv_cases K c buf s h4 with ⟨_, h⟩ | ⟨l, rest, n, hi, hl, _, _, u, h⟩
  · exact .inl ⟨_, _, h⟩
  rcases h with ⟨_, h⟩ | ⟨_, _, h⟩ | ⟨body, tag, rest', hn, hr, hbl, htl, h⟩
  · exact .inl ⟨_, _, h⟩
  · exact .inl ⟨_, _, h⟩
  rcases h with ⟨_, h⟩ | ⟨_, hc, h⟩ | ⟨_, hc, ⟨payload, padding, hb, _, _, h⟩ | ⟨e, _, h⟩⟩
  · exact .inl ⟨_, _, h⟩
  · exact .inr (.inl ⟨by omega, _, h⟩)
  · refine .inr (.inr ⟨hc, payload, c.next u, _, rest', h, ?_, ChaCha.next_counter _ _ hc, rfl, ?_⟩)
    · rw [hi, hr]; len
    · simp only [List.length_append, u32_length, sealBody_length, List.length_drop]
      omega
  · exact .inl ⟨_, _, h⟩

/-- a packet that is delivered, as it was sealed -/
theorem In.recv_sealed {K : Crypto} {c c' : ChaCha} {buf buf' p : Bytes} {s s' : IoSt}
    (h4 : 4 ≤ buf.length) (h : In.recv K c buf s = (ok (p, c', buf'), s')) :
    ∃ raw, Spec.Framed .b8 false p raw ∧ raw.length + 16 ≤ buf.length ∧
      s.inp = Spec.sealed K (Spec.keysOf c) c.counter.toNat raw ++ s'.inp := by
  rcases In.recv_cases K c buf s h4 with ⟨_, e⟩ | ⟨l, r, n, h1, h2, h3, h4', u, h5⟩
  · rw [h] at e; simp at e
  rcases h5 with ⟨_, e⟩ | ⟨_, _, e⟩ | ⟨body, tag, rest', h5, h6, h7, h8, h9⟩
  · rw [h] at e; simp at e
  · rw [h] at e; simp at e
  rcases h9 with ⟨_, e⟩ | ⟨_, _, e⟩ | ⟨ht, hc, ⟨payload', padding, g1, g2, g3, e⟩ | ⟨_, _, e⟩⟩
  · rw [h] at e; simp at e
  · rw [h] at e; simp at e
  · rw [h] at e
    simp only [Prod.mk.injEq, R.ok.injEq] at e
    obtain ⟨⟨rfl, rfl, rfl⟩, rfl⟩ := e
    have hbl : (Spec.sealBody K (Spec.keysOf c) c.counter.toNat body).length = n := by
      rw [sealBody_length, h7]
    have hn : n = 1 + p.length + padding.length := by
      rw [g1] at hbl
      simp only [List.length_cons, List.length_append] at hbl
      omega
    refine ⟨Spec.u32 n ++ Spec.sealBody K (Spec.keysOf c) c.counter.toNat body,
      ⟨padding, by rw [g1, hn], by omega, ?_, by omega, by omega⟩, ?_, ?_⟩
    · rw [← hn]
      simpa [Spec.Aligned, Spec.blockBytes] using g3
    · rw [List.length_append, u32_length, hbl]; omega
    · have e1 : (Spec.u32 n ++ Spec.sealBody K (Spec.keysOf c) c.counter.toNat body).take 4 = Spec.u32 n :=
        List.take_left' (u32_length n)
      have e2 : (Spec.u32 n ++ Spec.sealBody K (Spec.keysOf c) c.counter.toNat body).drop 4 =
          Spec.sealBody K (Spec.keysOf c) c.counter.toNat body := List.drop_left' (u32_length n)
      have e3 : Spec.sealLength K (Spec.keysOf c) c.counter.toNat (Spec.u32 n) = l := by
        rw [← h4']
        exact xorStream_invol _ _ _
      have e4 : Spec.sealBody K (Spec.keysOf c) c.counter.toNat
          (Spec.sealBody K (Spec.keysOf c) c.counter.toNat body) = body := xorStream_invol _ _ _
      rw [Spec.sealed, e1, e2, e3, e4, ← ht, h1, h6]
      simp
  · rw [h] at e; simp at e

end Nora
