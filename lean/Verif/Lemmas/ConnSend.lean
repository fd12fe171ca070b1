import Verif.Lemmas.Send
import Verif.Spec.Conn
/-
Sending a message in a client session.
-/
namespace Nora
open R

theorem M.bind_assoc {ε α β γ : Type} (x : M ε α) (f : α → M ε β) (g : β → M ε γ) :
    ((x >>= f) >>= g) = (x >>= fun a => f a >>= g) := by
  funext s
  rw [M.bind_run, M.bind_run, M.bind_run]
  rcases x s with ⟨r, s'⟩
  cases r <;> rfl

/-- `Out.send` is `Out.seal` and a write -/
theorem Out.send_seal (K : Crypto) (c : ChaCha) (buf : Bytes)
    (fill : Bytes → R OutError (Nat × Bytes)) :
    Out.send K c buf fill = (do
      let (enc, c, buf) ← Out.seal K c buf fill
      (M.writeAll enc).mapErr (fun _ => .write)
      pure (c, buf)) := by
  simp only [Out.send, Out.seal, M.bind_assoc, M.pure_bind]

/-- sealing a message that fits -/
theorem Out.seal_cases (K : Crypto) (c : ChaCha) (buf : Bytes) {m : Message} {e : Bytes}
    (hm : Writes m e) (s : IoSt) (hb : e.length + 32 ≤ buf.length)
    (hb2 : buf.length < 4294967296) :
    ∃ k, Spec.LeastPad .b8 false e.length k ∧
    ((c.counter.toNat + 1 < 2 ^ 64 ∧ ∃ raw c' buf',
      Spec.PacketOf .b8 false e (s.rng.bytes k) raw ∧
      Out.seal K c buf (Message.write m) s =
        (ok (Spec.sealed K (Spec.keysOf c) c.counter.toNat raw, c', buf'),
          { s with rng := s.rng.skip k, log := s.log ++ [.sent e] }) ∧
      raw.length + 16 ≤ buf.length ∧
      c'.counter.toNat = c.counter.toNat + 1 ∧ Spec.keysOf c' = Spec.keysOf c ∧
      buf'.length = buf.length) ∨
    (¬ c.counter.toNat + 1 < 2 ^ 64 ∧ Out.seal K c buf (Message.write m) s =
      (R.panic, { s with rng := s.rng.skip k }))) := by
  obtain ⟨k, hk⟩ := leastPad_exists .b8 false e.length
  have hk67 := leastPad8_lt hk
  refine ⟨k, hk, ?_⟩
  have hl : (s.rng.bytes k).length = k := by simp [Tape.bytes]
  have hw : (Message.write m (buf.drop 5) : R OutError _) =
      ok (e.length, e ++ (buf.drop 5).drop e.length) := by
    rw [Message.write, hm, if_pos (by len)]; rfl
  have hnl : (e ++ (buf.drop 5).drop e.length).length + 5 = buf.length := by len
  have htake : (e ++ (buf.drop 5).drop e.length).take e.length = e := by simp
  have hwr := Packet.wrap_eq (ε := OutError) (bs := .b8) (mode := false) (rng := s.rng)
    (by omega) hw hnl hk
  rw [htake, if_pos (by omega)] at hwr
  have hp : Spec.PacketOf .b8 false e (s.rng.bytes k)
      (Spec.u32 (1 + e.length + k) ++ UInt8.ofNat k :: (e ++ s.rng.bytes k)) :=
    ⟨by rw [hl], by rw [hl]; exact hk.1, by omega, by rw [hl]; exact hk.2.1, by rw [hl]; omega⟩
  generalize hraw : Spec.u32 (1 + e.length + k) ++ UInt8.ofNat k :: (e ++ s.rng.bytes k) = raw at hp
  have hrl : raw.length = 5 + e.length + k := by rw [packetOf_length hp, hl]
  generalize hD : (e ++ (buf.drop 5).drop e.length).drop (e.length + k) = D at hwr
  have hD' : D.length + (5 + e.length + k) = buf.length := by rw [← hD]; len
  have hdata : Spec.u32 (1 + e.length + k) ++ UInt8.ofNat k :: (e ++ (s.rng.bytes k ++ D)) =
      raw ++ D.take 16 ++ D.drop 16 := by
    rw [← hraw, List.append_assoc, List.take_append_drop]
    simp only [List.append_assoc, List.cons_append]
  rw [hdata] at hwr
  have e1 := M.withRng_ok (f := Packet.wrap buf c.blockSize false (Message.write m)) (s := s) hwr
  have e2 : (Packet.payload ⟨raw ++ D.take 16 ++ D.drop 16⟩ : R OutError Bytes) = ok e := by
    rw [List.append_assoc]
    exact (Packet.wrapRaw_packetOf hp _).2.1
  have htag : (D.take 16).length = 16 := by len
  have e3 : (Packet.intoRaw ⟨raw ++ D.take 16 ++ D.drop 16⟩ tagSize : R OutError Bytes) =
      ok (raw ++ D.take 16) := by
    have := Packet.intoRaw_packetOf (ε := OutError) (D.take 16) (D.drop 16) hp
    rw [htag] at this
    exact this
  have e5 : (raw ++ D.take 16 ++ D.drop 16).drop (raw ++ D.take 16).length = D.drop 16 :=
    List.drop_left
  by_cases hc : c.counter.toNat + 1 < 2 ^ 64
  · left
    have e4 := ChaCha.encrypt_eq (ε := OutError) K c raw _ (by omega) htag hc
    refine ⟨hc, raw, c.next (c.sendUses (raw.length - 4)),
      Spec.sealed K (Spec.keysOf c) c.counter.toNat raw ++ D.drop 16, hp, ?_, by omega,
      ChaCha.next_counter _ _ hc, rfl, ?_⟩
    · simp only [Out.seal]
      rw [M.bind_ok e1, e2, M.lift_ok_bind, e3, M.lift_ok_bind, e4, M.lift_ok_bind]
      simp only [e5]
      rw [M.bind_ok (M.logEvent_run _ _)]
      rfl
    · have : (Spec.sealed K (Spec.keysOf c) c.counter.toNat raw).length = raw.length + 16 := by
        simp only [Spec.sealed, List.length_append, sealLength_length, sealBody_length,
          mac_length, List.length_take, List.length_drop]
        omega
      simp only [List.length_append, List.length_drop, this]
      omega
  · right
    refine ⟨hc, ?_⟩
    simp only [Out.seal]
    rw [M.bind_ok e1, e2, M.lift_ok_bind, e3, M.lift_ok_bind,
      ChaCha.encrypt_overflow K c _ (by len) hc]
    rfl

namespace Client

/-- sending without being interrupted -/
def sendAll (K : Crypto) (st : St) (m : Message) : M Stop St := do
  let (enc, c, buf) ← (Out.seal K st.send st.buf (Message.write m)).mapErr (fun _ => .out)
  (M.writeAll enc).mapErr (fun _ => .out)
  pure { st with send := c, buf }

theorem send_plain (K : Crypto) {cut : Cut} (st : St) (m : Message) (hcut : ∀ n, cut ≠ .write n) :
    send K cut st m = sendAll K st m := by
  have : send K cut st m = (show M Stop St from do
      let (c, buf) ← (Out.send K st.send st.buf (Message.write m)).mapErr (fun _ => .out)
      pure { st with send := c, buf }) := by
    cases cut with
    | write n => exact absurd rfl (hcut n)
    | _ => rfl
  rw [this, Out.send_seal]
  funext s
  rw [sendAll, M.bind_run, M.mapErr_run, M.bind_run, M.bind_run, M.mapErr_run]
  rcases Out.seal K st.send st.buf (Message.write m) s with ⟨r, s1⟩
  cases r with
  | ok a =>
    obtain ⟨enc, c, buf⟩ := a
    simp only [R.mapErr]
    rw [M.bind_run, M.mapErr_run, M.bind_run, M.mapErr_run]
    rcases M.writeAll enc s1 with ⟨r, s2⟩
    cases r <;> rfl
  | err e => rfl
  | panic => rfl

/-- Sending in a session, described completely. -/
theorem send_cases (K : Crypto) (cut : Cut) (st : St) {m : Message} {e : Bytes} (hm : Writes m e)
    (s : IoSt) (hb : e.length + 32 ≤ st.buf.length) (hb2 : st.buf.length < 4294967296) :
    (¬ st.send.counter.toNat + 1 < 2 ^ 64 ∧ ∃ s', send K cut st m s = (R.panic, s') ∧
      s'.log = s.log) ∨
    ∃ k raw c' buf' s', Spec.LeastPad .b8 false e.length k ∧
      Spec.PacketOf .b8 false e (s.rng.bytes k) raw ∧ raw.length + 16 ≤ st.buf.length ∧
      c'.counter.toNat = st.send.counter.toNat + 1 ∧ Spec.keysOf c' = Spec.keysOf st.send ∧
      buf'.length = st.buf.length ∧ s'.inp = s.inp ∧ s'.log = s.log ++ [.sent e] ∧
      (s.wcap = none → s'.wcap = none) ∧
      ((send K cut st m s = (ok { st with send := c', buf := buf' }, s') ∧
         s'.out = s.out ++ Spec.sealed K (Spec.keysOf st.send) st.send.counter.toNat raw) ∨
       (s.wcap ≠ none ∧ send K cut st m s = (err .out, s')) ∨
       ∃ n, cut = .write n ∧ send K cut st m s =
         (err (.dropped { st with send := c', buf := buf' }), s')) := by
  obtain ⟨k, hk, ⟨hc, raw, c', buf', hp, hs, hr, h1, h2, h3⟩ | ⟨hc, hs⟩⟩ :=
    Out.seal_cases K st.send st.buf hm s hb hb2
  · right
    have whole : ∀ x : M Stop St, x = sendAll K st m →
        (∃ s', s'.inp = s.inp ∧ s'.log = s.log ++ [.sent e] ∧ (s.wcap = none → s'.wcap = none) ∧
          ((x s = (ok { st with send := c', buf := buf' }, s') ∧
            s'.out = s.out ++ Spec.sealed K (Spec.keysOf st.send) st.send.counter.toNat raw) ∨
           (s.wcap ≠ none ∧ x s = (err .out, s')))) := by
      intro x hx
      rw [hx, sendAll, M.bind_ok (by rw [M.mapErr_run, hs]; rfl)]
      simp only
      rcases M.writeAll_cases (Spec.sealed K (Spec.keysOf st.send) st.send.counter.toNat raw)
        { s with rng := s.rng.skip k, log := s.log ++ [.sent e] } with ⟨w, hw, hn⟩ | ⟨hw, n, hs'⟩
      · rw [M.bind_ok (by rw [M.mapErr_run, hw]; rfl)]
        exact ⟨{ s with
          rng := s.rng.skip k
          out := s.out ++ Spec.sealed K (Spec.keysOf st.send) st.send.counter.toNat raw
          wcap := w
          log := s.log ++ [.sent e] }, rfl, rfl, hn, .inl ⟨rfl, rfl⟩⟩
      · rw [M.bind_err (by rw [M.mapErr_run, hs']; rfl)]
        exact ⟨{ s with
          rng := s.rng.skip k
          out := s.out ++ (Spec.sealed K (Spec.keysOf st.send) st.send.counter.toNat raw).take n
          wcap := some 0
          log := s.log ++ [.sent e] }, rfl, rfl, fun h => absurd h hw, .inr ⟨hw, rfl⟩⟩
    by_cases hcut : ∃ n, cut = .write n
    · obtain ⟨n, rfl⟩ := hcut
      by_cases hn : n < (Spec.sealed K (Spec.keysOf st.send) st.send.counter.toNat raw).length
      · have : send K (.write n) st m s =
            ((M.writeAll ((Spec.sealed K (Spec.keysOf st.send) st.send.counter.toNat raw).take
              n)).mapErr (fun _ => Stop.out) >>= fun _ =>
            (M.fail (.dropped { st with send := c', buf := buf' }) : M Stop St))
            { s with rng := s.rng.skip k, log := s.log ++ [.sent e] } := by
          rw [send, M.bind_ok (by rw [M.mapErr_run, hs]; rfl)]
          simp only [if_pos hn]
        rcases M.writeAll_cases ((Spec.sealed K (Spec.keysOf st.send) st.send.counter.toNat
            raw).take n) { s with rng := s.rng.skip k, log := s.log ++ [.sent e] } with
          ⟨w, hw, hnn⟩ | ⟨hw, n', hs'⟩
        · rw [M.bind_ok (by rw [M.mapErr_run, hw]; rfl)] at this
          exact ⟨k, raw, c', buf', { s with
            rng := s.rng.skip k
            out := s.out ++ (Spec.sealed K (Spec.keysOf st.send) st.send.counter.toNat raw).take n
            wcap := w
            log := s.log ++ [.sent e] }, hk, hp, hr, h1, h2, h3, rfl, rfl, hnn,
            .inr (.inr ⟨n, rfl, this⟩)⟩
        · rw [M.bind_err (by rw [M.mapErr_run, hs']; rfl)] at this
          exact ⟨k, raw, c', buf', { s with
            rng := s.rng.skip k
            out := s.out ++
              ((Spec.sealed K (Spec.keysOf st.send) st.send.counter.toNat raw).take n).take n'
            wcap := some 0
            log := s.log ++ [.sent e] }, hk, hp, hr, h1, h2, h3, rfl, rfl, fun h => absurd h hw,
            .inr (.inl ⟨hw, this⟩)⟩
      · have : send K (.write n) st m s = sendAll K st m s := by
          rw [send, sendAll, M.bind_ok (by rw [M.mapErr_run, hs]; rfl),
            M.bind_ok (by rw [M.mapErr_run, hs]; rfl)]
          simp only [if_neg hn]
        obtain ⟨s', a1, a2, a3, a4⟩ := whole _ rfl
        refine ⟨k, raw, c', buf', s', hk, hp, hr, h1, h2, h3, a1, a2, a3, ?_⟩
        rw [this]
        rcases a4 with a4 | a4
        · exact .inl a4
        · exact .inr (.inl a4)
    · obtain ⟨s', a1, a2, a3, a4⟩ := whole _ (send_plain K st m fun n h => hcut ⟨n, h⟩)
      refine ⟨k, raw, c', buf', s', hk, hp, hr, h1, h2, h3, a1, a2, a3, ?_⟩
      rcases a4 with a4 | a4
      · exact .inl a4
      · exact .inr (.inl a4)
  · left
    refine ⟨hc, { s with rng := s.rng.skip k }, ?_, ?_⟩
    · cases cut with
      | write n =>
        rw [send, M.bind_panic (by rw [M.mapErr_run, hs]; rfl)]
      | _ =>
        simp only [send]
        rw [Out.send_seal, M.bind_panic
          (by rw [M.mapErr_run, M.bind_panic hs]; rfl)]
    · rfl

end Client

end Nora
