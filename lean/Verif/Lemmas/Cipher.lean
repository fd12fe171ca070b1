import Verif.Spec.Cipher
import Verif.Lemmas.Io
import Verif.Model.Transport
/-
Lemmas about the cipher and the encrypted transport.
-/
namespace Nora
open R

variable {ε : Type}

/-! ### keystream -/

theorem xorKs_eq (ks : Nat → Byte) (d : Bytes) : ∀ pos, xorKs ks pos d = Spec.xorStream ks pos d := by
  induction d with
  | nil => intro pos; rfl
  | cons b t ih =>
    intro pos
    simp only [xorKs, ih, Spec.xorStream, List.mapIdx_cons, Nat.add_zero]
    congr 1
    apply List.ext_getElem?
    intro i
    simp only [List.getElem?_mapIdx]
    congr 1
    funext x
    rw [Nat.add_assoc, Nat.add_comm 1]

@[simp] theorem xorStream_length (ks : Nat → Byte) (pos : Nat) (d : Bytes) :
    (Spec.xorStream ks pos d).length = d.length := by simp [Spec.xorStream]

@[simp] theorem sealLength_length (K : Crypto) (k : Spec.Keys) (n : Nat) (d : Bytes) :
    (Spec.sealLength K k n d).length = d.length := by simp [Spec.sealLength]

@[simp] theorem sealBody_length (K : Crypto) (k : Spec.Keys) (n : Nat) (d : Bytes) :
    (Spec.sealBody K k n d).length = d.length := by simp [Spec.sealBody]

@[simp] theorem mac_length (K : Crypto) (k : Spec.Keys) (n : Nat) (d : Bytes) :
    (Spec.mac K k n d).length = 16 := K.poly_length ..

@[simp] theorem xorStream_invol (ks : Nat → Byte) (pos : Nat) (d : Bytes) :
    Spec.xorStream ks pos (Spec.xorStream ks pos d) = d := by
  apply List.ext_getElem?
  intro i
  simp only [Spec.xorStream, List.getElem?_mapIdx, Option.map_map]
  cases d[i]? with
  | none => rfl
  | some b =>
    simp only [Option.map_some, Function.comp]
    rw [UInt8.xor_assoc, UInt8.xor_self, UInt8.xor_zero]

@[simp] theorem sealLength_invol (K : Crypto) (k : Spec.Keys) (n : Nat) (d : Bytes) :
    Spec.sealLength K k n (Spec.sealLength K k n d) = d := xorStream_invol ..

@[simp] theorem sealBody_invol (K : Crypto) (k : Spec.Keys) (n : Nat) (d : Bytes) :
    Spec.sealBody K k n (Spec.sealBody K k n d) = d := xorStream_invol ..

theorem xorKs_zero (ks : Nat → Byte) (n : Nat) :
    xorKs ks 0 (List.replicate n 0) = (List.range n).map ks := by
  rw [xorKs_eq]
  apply List.ext_getElem?
  intro i
  simp only [Spec.xorStream, List.getElem?_mapIdx, List.getElem?_replicate, List.getElem?_map]
  by_cases h : i < n
  · rw [if_pos h, List.getElem?_range h]; simp
  · rw [if_neg h, List.getElem?_eq_none (by simpa using h)]; rfl

theorem u64ToBe_eq (v : UInt64) : u64ToBe v = Spec.u64 v.toNat := by
  have h := v.toNat_lt
  simp only [u64ToBe, Spec.u64, List.cons.injEq, and_true]
  refine ⟨?_, ?_, ?_, ?_, ?_, ?_, ?_, ?_⟩ <;> apply UInt8.toNat_inj.mp <;>
    simp [Nat.shiftRight_eq_div_pow]

theorem u64_inj {m n : Nat} (hm : m < 2 ^ 64) (hn : n < 2 ^ 64) (h : Spec.u64 m = Spec.u64 n) :
    m = n := by
  simp only [Spec.u64, List.cons.injEq, ← UInt8.toNat_inj, UInt8.ofNat_toNat_mod] at h
  omega

/-! ### cipher -/

namespace ChaCha
variable (K : Crypto)

/-- add ghost uses -/
def use (c : ChaCha) (u : List KsUse) : ChaCha := { c with uses := c.uses ++ u }

@[simp] theorem use_keys (c : ChaCha) (u) : Spec.keysOf (c.use u) = Spec.keysOf c := rfl
@[simp] theorem use_counter (c : ChaCha) (u) : (c.use u).counter = c.counter := rfl
@[simp] theorem use_keyData (c : ChaCha) (u) : (c.use u).keyData = c.keyData := rfl
@[simp] theorem use_keyLength (c : ChaCha) (u) : (c.use u).keyLength = c.keyLength := rfl
@[simp] theorem use_nonce (c : ChaCha) (u) : (c.use u).nonce = c.nonce := rfl
theorem use_use (c : ChaCha) (u v) : (c.use u).use v = c.use (u ++ v) := by simp [use]

/-- the cipher after a packet -/
def next (c : ChaCha) (u : List KsUse) : ChaCha :=
  { c with counter := c.counter + 1, uses := c.uses ++ u }

@[simp] theorem next_keys (c : ChaCha) (u) : Spec.keysOf (c.next u) = Spec.keysOf c := rfl
theorem next_counter (c : ChaCha) (u) (h : c.counter.toNat + 1 < 2 ^ 64) :
    (c.next u).counter.toNat = c.counter.toNat + 1 := by
  simp only [next, UInt64.toNat_add]
  exact Nat.mod_eq_of_lt h

theorem nonce_eq (c : ChaCha) : c.nonce = Spec.u64 c.counter.toNat := u64ToBe_eq _

theorem apply_eq (c : ChaCha) (key : Bytes) (pos : Nat) (data : Bytes) :
    c.apply K key pos data =
      (Spec.xorStream (K.stream key (Spec.u64 c.counter.toNat)) pos data,
       c.use [⟨key, Spec.u64 c.counter.toNat, pos, data.length⟩]) := by
  rw [apply, nonce_eq, xorKs_eq]; rfl

theorem decryptLength_eq (c : ChaCha) (l : Bytes) :
    c.decryptLength K l = (Spec.sealLength K (Spec.keysOf c) c.counter.toNat l,
      c.use [⟨c.keyLength, Spec.u64 c.counter.toNat, 0, l.length⟩]) := by
  rw [decryptLength, apply_eq]; rfl

theorem applyData_eq (c : ChaCha) (d : Bytes) :
    c.applyData K d = (Spec.sealBody K (Spec.keysOf c) c.counter.toNat d,
      c.use [⟨c.keyData, Spec.u64 c.counter.toNat, 64, d.length⟩]) := by
  rw [applyData, apply_eq]; rfl

theorem computeTag_eq (c : ChaCha) (d : Bytes) :
    c.computeTag K d = (Spec.mac K (Spec.keysOf c) c.counter.toNat d,
      c.use [⟨c.keyData, Spec.u64 c.counter.toNat, 0, 32⟩]) := by
  simp only [computeTag, apply, nonce_eq, xorKs_zero, List.length_replicate]
  rfl

/-- the keystream used for sending a packet of `m` bytes besides its length field -/
def sendUses (c : ChaCha) (m : Nat) : List KsUse :=
  [⟨c.keyLength, Spec.u64 c.counter.toNat, 0, 4⟩, ⟨c.keyData, Spec.u64 c.counter.toNat, 64, m⟩,
   ⟨c.keyData, Spec.u64 c.counter.toNat, 0, 32⟩]

theorem encrypt_eq (c : ChaCha) (raw tag : Bytes) (h4 : 4 ≤ raw.length) (ht : tag.length = 16)
    (hc : c.counter.toNat + 1 < 2 ^ 64) :
    (c.encrypt K (raw ++ tag) : R ε _) =
      ok (Spec.sealed K (Spec.keysOf c) c.counter.toNat raw, c.next (c.sendUses (raw.length - 4))) := by
  have e1 : (subP (raw ++ tag).length tagSize : R ε Nat) = ok raw.length := by
    rw [subP, if_pos (by simp [tagSize]; omega)]
    congr 1; simp [tagSize]; omega
  have e2 : (splitAtP (raw ++ tag) raw.length : R ε _) = ok (raw, tag) := by
    rw [splitAtP_of_le (by simp)]; simp
  have e3 : (splitAtP raw 4 : R ε _) = ok (raw.take 4, raw.drop 4) := splitAtP_of_le h4
  simp only [encrypt, e1, ok_bind, e2, e3, apply_eq, applyData_eq, computeTag_eq, use_keys,
    use_counter, use_keyData, bump, if_pos hc]
  rw [R.ok.injEq, Prod.mk.injEq]
  constructor
  · rfl
  · simp only [use_use]
    simp [use, next, sendUses, List.length_take, Nat.min_eq_left h4]

theorem authenticate_eq (c : ChaCha) (cov tag : Bytes) (ht : tag.length = 16) :
    (c.authenticate K (cov ++ tag) : R ε _) =
      ok (decide (Spec.mac K (Spec.keysOf c) c.counter.toNat cov = tag),
        c.use [⟨c.keyData, Spec.u64 c.counter.toNat, 0, 32⟩]) := by
  have e1 : (subP (cov ++ tag).length tagSize : R ε Nat) = ok cov.length := by
    rw [subP, if_pos (by simp [tagSize]; omega)]
    congr 1; simp [tagSize]; omega
  have e2 : (splitAtP (cov ++ tag) cov.length : R ε _) = ok (cov, tag) := by
    rw [splitAtP_of_le (by simp)]; simp
  simp only [authenticate, e1, ok_bind, e2, computeTag_eq]

/-- ghost uses of a successful decryption -/
def recvUses (c : ChaCha) (m : Nat) : List KsUse :=
  [⟨c.keyData, Spec.u64 c.counter.toNat, 0, 32⟩, ⟨c.keyData, Spec.u64 c.counter.toNat, 64, m⟩]

theorem decryptData_eq (c : ChaCha) (l body tag : Bytes) (hl : l.length = 4) (ht : tag.length = 16) :
    c.decryptData K (l ++ body ++ tag) =
      if Spec.mac K (Spec.keysOf c) c.counter.toNat (l ++ body) = tag then
        if c.counter.toNat + 1 < 2 ^ 64 then
          ok (l ++ Spec.sealBody K (Spec.keysOf c) c.counter.toNat body ++ tag,
            c.next (c.recvUses body.length))
        else panic
      else err (c.use [⟨c.keyData, Spec.u64 c.counter.toNat, 0, 32⟩]) := by
  simp only [decryptData, authenticate_eq K c (l ++ body) tag ht, ok_bind, decide_eq_true_eq]
  by_cases hm : Spec.mac K (Spec.keysOf c) c.counter.toNat (l ++ body) = tag
  · rw [if_pos hm, if_pos hm]
    have e1 : (subP (l ++ body ++ tag).length tagSize : R ChaCha Nat) = ok (4 + body.length) := by
      rw [subP, if_pos (by simp [tagSize]; omega)]
      congr 1; simp [tagSize]; omega
    have e2 : (idxRange (l ++ body ++ tag) 4 (4 + body.length) : R ChaCha Bytes) = ok body := by
      rw [idxRange, if_pos (by simp; omega)]
      congr 1
      have : 4 + body.length = (l ++ body).length := by simp; omega
      rw [this, List.take_left, ← hl, List.drop_left]
    have e3 : (l ++ body ++ tag).take 4 = l := by
      rw [List.append_assoc, ← hl, List.take_left]
    have e4 : (l ++ body ++ tag).drop (4 + body.length) = tag := by
      have : 4 + body.length = (l ++ body).length := by simp; omega
      rw [this, List.drop_left]
    simp only [e1, ok_bind, e2, applyData_eq, use_keys, use_counter, use_keyData, bump]
    by_cases hc : c.counter.toNat + 1 < 2 ^ 64
    · simp only [if_pos hc, ok_bind, e3, e4]
      rw [R.ok.injEq, Prod.mk.injEq]
      refine ⟨rfl, ?_⟩
      simp [use, next, recvUses]
    · simp only [if_neg hc, panic_bind]
  · rw [if_neg hm, if_neg hm]

end ChaCha


/-! ### transport -/

theorem M.withRng_ok {α : Type} {f : Tape → R ε (α × Tape)} {s : IoSt} {a : α} {t : Tape}
    (h : f s.rng = ok (a, t)) : M.withRng f s = (ok a, { s with rng := t }) := by
  simp only [M.withRng, h]

theorem packetOf_length {bs : BlockSize} {mode : Bool} {payload padding raw : Bytes}
    (h : Spec.PacketOf bs mode payload padding raw) :
    raw.length = 5 + payload.length + padding.length := by
  rw [h.bytes]; simp; omega

/-- `Out::send`, described completely for a payload that fits the buffer. -/
theorem Out.send_eq (K : Crypto) (c : ChaCha) (buf : Bytes) (fill : Bytes → R OutError (Nat × Bytes))
    (s : IoSt) (n k : Nat) (new : Bytes) (hf : fill (buf.drop 5) = ok (n, new))
    (hl : new.length = (buf.drop 5).length) (hk : Spec.LeastPad .b8 false n k)
    (hfit : 5 + n + k + 16 ≤ buf.length) (h32 : 1 + n + k < 4294967296)
    (hc : c.counter.toNat + 1 < 2 ^ 64) :
    ∃ raw, Spec.PacketOf .b8 false (new.take n) (s.rng.bytes k) raw ∧ raw.length = 5 + n + k ∧
      Out.send K c buf fill s =
        (match M.writeAll (Spec.sealed K (Spec.keysOf c) c.counter.toNat raw)
            { s with rng := s.rng.skip k, log := s.log ++ [.sent (new.take n)] } with
         | (.ok _, s2) => (ok (c.next (c.sendUses (1 + n + k)),
              Spec.sealed K (Spec.keysOf c) c.counter.toNat raw ++ new.drop (n + k + 16)), s2)
         | (.err _, s2) => (err .write, s2)
         | (.panic, s2) => (R.panic, s2)) := by
  have k67 := leastPad_le hk
  have hl' : new.length + 5 = buf.length := by simp at hl; omega
  have hn : (new.take n).length = n := by len
  have hw := Packet.wrap_eq (ε := OutError) (bs := .b8) (mode := false) (rng := s.rng)
    (by omega) hf hl' hk
  rw [if_pos ⟨by omega, h32⟩] at hw
  have hp : Spec.PacketOf .b8 false (new.take n) (s.rng.bytes k)
      (Spec.u32 (1 + n + k) ++ UInt8.ofNat k :: (new.take n ++ s.rng.bytes k)) := by
    refine ⟨?_, ?_, ?_, ?_, ?_⟩
    · rw [hn, Tape.bytes_length]
    · rw [Tape.bytes_length]; exact hk.1
    · rw [Tape.bytes_length]; omega
    · rw [hn, Tape.bytes_length]; exact hk.2.1
    · rw [hn, Tape.bytes_length]; exact h32
  generalize hraw : Spec.u32 (1 + n + k) ++ UInt8.ofNat k :: (new.take n ++ s.rng.bytes k) = raw at hp
  have hlen : raw.length = 5 + n + k := by
    rw [packetOf_length hp, hn, Tape.bytes_length]
  have htag : ((new.drop (n + k)).take 16).length = 16 := by len
  have hdata : Spec.u32 (1 + n + k) ++ UInt8.ofNat k :: (new.take n ++ (s.rng.bytes k ++
      new.drop (n + k))) = raw ++ (new.drop (n + k)).take 16 ++ new.drop (n + k + 16) := by
    rw [← hraw]
    simp only [List.append_assoc, List.cons_append]
    have := (List.take_append_drop 16 (new.drop (n + k))).symm
    rw [List.drop_drop] at this
    rw [← this]
  rw [hdata] at hw
  refine ⟨raw, hp, hlen, ?_⟩
  have e1 := M.withRng_ok (f := Packet.wrap buf c.blockSize false fill) (s := s) hw
  have e2 : (Packet.payload ⟨raw ++ (new.drop (n + k)).take 16 ++ new.drop (n + k + 16)⟩ :
      R OutError Bytes) = ok (new.take n) := by
    rw [List.append_assoc]
    exact (Packet.wrapRaw_packetOf hp _).2.1
  have e3 : (Packet.intoRaw ⟨raw ++ (new.drop (n + k)).take 16 ++ new.drop (n + k + 16)⟩ tagSize :
      R OutError Bytes) = ok (raw ++ (new.drop (n + k)).take 16) := by
    have := Packet.intoRaw_packetOf (ε := OutError) ((new.drop (n + k)).take 16)
      (new.drop (n + k + 16)) hp
    rw [htag] at this
    exact this
  have e4 := ChaCha.encrypt_eq (ε := OutError) K c raw _ (by omega) htag hc
  have e5 : (raw ++ (new.drop (n + k)).take 16 ++ new.drop (n + k + 16)).drop
      (raw ++ (new.drop (n + k)).take 16).length = new.drop (n + k + 16) := List.drop_left
  have e6 : raw.length - 4 = 1 + n + k := by omega
  simp only [Out.send]
  rw [M.bind_ok e1, e2, M.lift_ok_bind, e3, M.lift_ok_bind, e4, M.lift_ok_bind]
  simp only [e5, e6]
  rw [M.bind_ok (M.logEvent_run _ _), M.bind_run, M.mapErr_run]
  cases h : M.writeAll (Spec.sealed K (Spec.keysOf c) c.counter.toNat raw)
    { s with rng := s.rng.skip k, log := s.log ++ [.sent (new.take n)] } with
  | mk r s2 => cases r <;> rfl

/-- `In::recv`, described completely. -/
theorem In.recv_cases (K : Crypto) (c : ChaCha) (buf : Bytes) (s : IoSt) (h4 : 4 ≤ buf.length) :
    (s.inp.length < 4 ∧ In.recv K c buf s = (err (.read, c, buf), { s with inp := [] })) ∨
    ∃ l rest n, s.inp = l ++ rest ∧ l.length = 4 ∧ n < 4294967296 ∧
      Spec.sealLength K (Spec.keysOf c) c.counter.toNat l = Spec.u32 n ∧
      ∃ u, (
      (buf.length < 4 + n + 16 ∧ In.recv K c buf s =
        (err (.bufferTooSmall n, c.use u, l ++ buf.drop 4), { s with inp := rest })) ∨
      (4 + n + 16 ≤ buf.length ∧ rest.length < n + 16 ∧ In.recv K c buf s =
        (err (.read, c.use u, l ++ buf.drop 4), { s with inp := [] })) ∨
      ∃ body tag rest', 4 + n + 16 ≤ buf.length ∧ rest = body ++ tag ++ rest' ∧ body.length = n ∧
        tag.length = 16 ∧
        ((tag ≠ Spec.mac K (Spec.keysOf c) c.counter.toNat (l ++ body) ∧ In.recv K c buf s =
          (err (.cipher, c.use u, l ++ body ++ tag ++ buf.drop (4 + n + 16)),
            { s with inp := rest' })) ∨
         (tag = Spec.mac K (Spec.keysOf c) c.counter.toNat (l ++ body) ∧
          2 ^ 64 ≤ c.counter.toNat + 1 ∧
          In.recv K c buf s = (R.panic, { s with inp := rest' })) ∨
         (tag = Spec.mac K (Spec.keysOf c) c.counter.toNat (l ++ body) ∧
          c.counter.toNat + 1 < 2 ^ 64 ∧
          ((∃ payload padding,
            Spec.sealBody K (Spec.keysOf c) c.counter.toNat body =
              UInt8.ofNat padding.length :: (payload ++ padding) ∧ padding.length < 256 ∧
            n % 8 = 0 ∧
            In.recv K c buf s = (ok (payload, c.next u, Spec.u32 n ++
              Spec.sealBody K (Spec.keysOf c) c.counter.toNat body ++ tag ++
                buf.drop (4 + n + 16)),
              { s with inp := rest', log := s.log ++ [.received payload] })) ∨
           (∃ e, ((n % 8 ≠ 0 ∧ e = .badAlignment) ∨ (n % 8 = 0 ∧ e = .paddingTooLarge ∧ (n = 0 ∨ ∃ k r,
              Spec.sealBody K (Spec.keysOf c) c.counter.toNat body = k :: r ∧ n ≤ k.toNat))) ∧
            In.recv K c buf s = (err (.packet e, c.next u, Spec.u32 n ++
              Spec.sealBody K (Spec.keysOf c) c.counter.toNat body ++ tag ++
                buf.drop (4 + n + 16)), { s with inp := rest' })))))) := by
  have e0 : (splitAtP buf 4 : R (InError × ChaCha × Bytes) _) = ok (buf.take 4, buf.drop 4) :=
    splitAtP_of_le h4
  by_cases hi : s.inp.length < 4
  · left
    refine ⟨hi, ?_⟩
    unfold In.recv
    rw [e0, M.lift_ok_bind]
    simp only
    rw [M.bind_err (e := (.read, c, buf)) (s' := { s with inp := [] })]
    rw [M.mapErr_run, M.readExact_err hi]; rfl
  right
  have hl4 : (s.inp.take 4).length = 4 := by len
  have hsplit : s.inp = s.inp.take 4 ++ s.inp.drop 4 := (List.take_append_drop ..).symm
  have e1 : ∀ x, (M.readExact 4).mapErr (fun _ => x) s =
      ((ok (s.inp.take 4) : R (InError × ChaCha × Bytes) _), { s with inp := s.inp.drop 4 }) := by
    intro x
    rw [M.mapErr_run, M.readExact_ok (by omega)]; rfl
  generalize hl : s.inp.take 4 = l at *
  generalize hr : s.inp.drop 4 = rest at *
  obtain ⟨v, hv⟩ := exists_u32
    (s := Spec.sealLength K (Spec.keysOf c) c.counter.toNat l) (by simp [hl4])
  refine ⟨l, rest, v.toNat, hsplit, hl4, v.toNat_lt, hv, ?_⟩
  have hrecv : In.recv K c buf s = (do
      let d ← (if (buf.drop 4).length < v.toNat + tagSize then
          M.fail (.bufferTooSmall v.toNat,
            c.use [⟨c.keyLength, Spec.u64 c.counter.toNat, 0, 4⟩], l ++ buf.drop 4)
        else (M.readExact (v.toNat + tagSize)).mapErr (fun _ => (.read,
          c.use [⟨c.keyLength, Spec.u64 c.counter.toNat, 0, 4⟩], l ++ buf.drop 4)) :
            M (InError × ChaCha × Bytes) Bytes)
      let b := l ++ d ++ (buf.drop 4).drop (v.toNat + tagSize)
      let pkt ← M.lift (idxTo b (4 + v.toNat + tagSize))
      let (pkt, c) ← M.lift (((c.use [⟨c.keyLength, Spec.u64 c.counter.toNat, 0, 4⟩]).decryptData
        K pkt).mapErr (fun c => (.cipher, c, b)))
      let b := Spec.u32 v.toNat ++ pkt.drop 4 ++ b.drop (4 + v.toNat + tagSize)
      let p ← M.lift ((Packet.wrapRaw b false c.blockSize).mapErr (fun e => (.packet e, c, b)))
      let payload ← M.lift p.payload
      M.logEvent (.received payload)
      pure (payload, c, b)) { s with inp := rest } := by
    unfold In.recv
    rw [e0, M.lift_ok_bind]
    simp only
    rw [M.bind_ok (e1 _)]
    simp only [ChaCha.decryptLength_eq, hv, hl4, u32FromBe_u32, M.lift_ok_bind]
    by_cases hb : (buf.drop 4).length < v.toNat + tagSize
    · rw [if_pos hb, if_pos hb, M.fail_bind]
    · rw [if_neg hb, if_neg hb]
  by_cases hb : (buf.drop 4).length < v.toNat + tagSize
  · refine ⟨[⟨c.keyLength, Spec.u64 c.counter.toNat, 0, 4⟩], .inl ⟨?_, ?_⟩⟩
    · simp [tagSize] at hb; omega
    · rw [hrecv, if_pos hb, M.fail_bind, M.fail_run]
  rw [if_neg hb] at hrecv
  have hb' : 4 + v.toNat + 16 ≤ buf.length := by simp [tagSize] at hb; omega
  by_cases hrl : rest.length < v.toNat + 16
  · refine ⟨[⟨c.keyLength, Spec.u64 c.counter.toNat, 0, 4⟩], .inr (.inl ⟨hb', hrl, ?_⟩)⟩
    rw [hrecv, M.bind_err (e := (.read, c.use [⟨c.keyLength, Spec.u64 c.counter.toNat, 0, 4⟩],
      l ++ buf.drop 4)) (s' := { s with inp := [] })]
    rw [M.mapErr_run, M.readExact_err (by exact hrl)]; rfl
  have ht : ((rest.take (v.toNat + 16)).drop v.toNat).length = 16 := by len
  have hbl : (rest.take v.toNat).length = v.toNat := by len
  have hd : rest.take (v.toNat + 16) = rest.take v.toNat ++
      (rest.take (v.toNat + 16)).drop v.toNat := by
    have := (List.take_append_drop v.toNat (rest.take (v.toNat + 16))).symm
    rwa [List.take_take, Nat.min_eq_left (by omega)] at this
  have hrest : rest = rest.take v.toNat ++ (rest.take (v.toNat + 16)).drop v.toNat ++
      rest.drop (v.toNat + 16) := by
    rw [← hd, List.take_append_drop]
  generalize hbody : rest.take v.toNat = body at *
  generalize htag : (rest.take (v.toNat + 16)).drop v.toNat = tag at *
  generalize hrest' : rest.drop (v.toNat + 16) = rest' at *
  have e2 : (M.readExact (v.toNat + tagSize)).mapErr (fun _ => (InError.read,
      c.use [⟨c.keyLength, Spec.u64 c.counter.toNat, 0, 4⟩], l ++ buf.drop 4))
      { s with inp := rest } = (ok (body ++ tag), { s with inp := rest' }) := by
    rw [M.mapErr_run, M.readExact_ok (by show _ ≤ rest.length; simp only [tagSize]; omega)]
    show (_, ({ s with inp := rest.drop (v.toNat + 16) } : IoSt)) = _
    rw [hrest']
    show (R.mapErr _ (ok (rest.take (v.toNat + 16))), _) = _
    rw [hd]; rfl
  rw [M.bind_ok e2] at hrecv
  have e3 : l ++ (body ++ tag) ++ (buf.drop 4).drop (v.toNat + tagSize) =
      l ++ body ++ tag ++ buf.drop (4 + v.toNat + 16) := by
    rw [List.drop_drop]; simp [tagSize, Nat.add_assoc]
  have hcl : (l ++ body ++ tag).length = 4 + v.toNat + 16 := by len
  have e4 : (idxTo (l ++ body ++ tag ++ buf.drop (4 + v.toNat + 16)) (4 + v.toNat + tagSize) :
      R (InError × ChaCha × Bytes) Bytes) = ok (l ++ body ++ tag) := by
    rw [idxTo, if_pos (by simp [tagSize]; omega)]
    congr 1
    show List.take (4 + v.toNat + 16) _ = _
    rw [← hcl, List.take_left]
  have e5 : (l ++ body ++ tag ++ buf.drop (4 + v.toNat + 16)).drop (4 + v.toNat + tagSize) =
      buf.drop (4 + v.toNat + 16) := by
    show List.drop (4 + v.toNat + 16) _ = _
    conv => lhs; arg 1; rw [← hcl]
    rw [List.drop_left]
  simp only [e3, e4, M.lift_ok_bind, e5,
    ChaCha.decryptData_eq K _ l body tag hl4 ht, ChaCha.use_keys, ChaCha.use_counter] at hrecv
  by_cases hm : Spec.mac K (Spec.keysOf c) c.counter.toNat (l ++ body) = tag
  · simp only [hm, if_true] at hrecv
    by_cases hc : c.counter.toNat + 1 < 2 ^ 64
    · simp only [hc, if_true] at hrecv
      simp only [ok_mapErr, M.lift_ok_bind] at hrecv
      refine ⟨⟨c.keyLength, Spec.u64 c.counter.toNat, 0, 4⟩ :: c.recvUses body.length,
        .inr (.inr ⟨body, tag, rest', hb', hrest, hbl, ht, .inr (.inr ⟨hm.symm, hc, ?_⟩)⟩)⟩
      have ec : (c.use [⟨c.keyLength, Spec.u64 c.counter.toNat, 0, 4⟩]).next
          ((c.use [⟨c.keyLength, Spec.u64 c.counter.toNat, 0, 4⟩]).recvUses body.length) =
          c.next (⟨c.keyLength, Spec.u64 c.counter.toNat, 0, 4⟩ :: c.recvUses body.length) := by
        simp [ChaCha.next, ChaCha.use, ChaCha.recvUses]
      have ed : Spec.u32 v.toNat ++ (l ++ Spec.sealBody K (Spec.keysOf c) c.counter.toNat body ++
          tag).drop 4 ++ buf.drop (4 + v.toNat + 16) = Spec.u32 v.toNat ++
          Spec.sealBody K (Spec.keysOf c) c.counter.toNat body ++ tag ++
            buf.drop (4 + v.toNat + 16) := by
        rw [List.append_assoc l, ← hl4, List.drop_left]
        simp
      rw [ec, ed] at hrecv
      have hbs : (c.next (⟨c.keyLength, Spec.u64 c.counter.toNat, 0, 4⟩ ::
        c.recvUses body.length)).blockSize = .b8 := rfl
      rw [hbs] at hrecv
      have hpl : (Spec.sealBody K (Spec.keysOf c) c.counter.toNat body).length = v.toNat := by
        simp [hbl]
      generalize Spec.sealBody K (Spec.keysOf c) c.counter.toNat body = plain at *
      generalize c.next (⟨c.keyLength, Spec.u64 c.counter.toNat, 0, 4⟩ ::
        c.recvUses body.length) = c' at *
      have hassoc : Spec.u32 v.toNat ++ plain ++ tag ++ buf.drop (4 + v.toNat + 16) =
          Spec.u32 v.toNat ++ (plain ++ (tag ++ buf.drop (4 + v.toNat + 16))) := by simp
      cases hwr : Packet.wrapRaw (Spec.u32 v.toNat ++ plain ++ tag ++ buf.drop (4 + v.toNat + 16))
        false .b8 with
      | ok p =>
        left
        rw [hwr] at hrecv
        simp only [ok_mapErr, M.lift_ok_bind] at hrecv
        -- the packet is not empty
        cases plain with
        | nil =>
          exfalso
          have hv0 : v.toNat = 0 := by simpa using hpl.symm
          rw [hassoc] at hwr
          cases tag with
          | nil => simp at ht
          | cons t0 tag =>
            simp only [List.nil_append, List.cons_append] at hwr
            rw [Packet.wrapRaw_eq v.toNat_lt] at hwr
            split_ifs at hwr with h1 h2
            exact h2 (by omega)
        | cons k r =>
          rw [hassoc, List.cons_append, Packet.wrapRaw_eq v.toNat_lt] at hwr
          split_ifs at hwr with h1 h2
          injection hwr with hwr
          have hk := k.toNat_lt
          simp only [List.length_cons] at hpl
          have hlen1 : (r.drop (v.toNat - 1 - k.toNat)).length = k.toNat := by len
          have hsp : r = r.take (v.toNat - 1 - k.toNat) ++ r.drop (v.toNat - 1 - k.toNat) :=
            (List.take_append_drop ..).symm
          refine ⟨r.take (v.toNat - 1 - k.toNat), r.drop (v.toNat - 1 - k.toNat), ?_, ?_, ?_, ?_⟩
          · rw [hlen1, ← hsp]; simp
          · rw [hlen1]; exact hk
          · simpa [Spec.Aligned, Spec.blockBytes] using h1
          · have hpay : (p.payload : R (InError × ChaCha × Bytes) Bytes) =
                ok (r.take (v.toNat - 1 - k.toNat)) := by
              rw [← hwr, Packet.payload_eq v.toNat_lt k _ (by omega) (by len)]
              congr 1
              rw [List.take_append_of_le_length (by omega)]
            rw [hpay] at hrecv
            rw [hrecv]; rfl
      | err e =>
        right
        refine ⟨e, ?_, ?_⟩
        · cases plain with
          | nil =>
            have hv0 : v.toNat = 0 := by simpa using hpl.symm
            rw [hassoc] at hwr
            cases tag with
            | nil => simp at ht
            | cons t0 tag =>
              simp only [List.nil_append, List.cons_append] at hwr
              rw [Packet.wrapRaw_eq v.toNat_lt, if_neg (by simp [Spec.Aligned, Spec.blockBytes, hv0]),
                if_pos (by omega)] at hwr
              exact .inr ⟨by omega, (R.err.inj hwr).symm, .inl hv0⟩
          | cons k r =>
            rw [hassoc, List.cons_append, Packet.wrapRaw_eq v.toNat_lt] at hwr
            split_ifs at hwr with h1 h2
            · exact .inr ⟨by simpa [Spec.Aligned, Spec.blockBytes] using h1, (R.err.inj hwr).symm,
                .inr ⟨k, r, rfl, h2⟩⟩
            · exact .inl ⟨by simpa [Spec.Aligned, Spec.blockBytes] using h1, (R.err.inj hwr).symm⟩
        · rw [hrecv, hwr]; rfl
      | panic =>
        exfalso
        obtain ⟨n', k, r, hn', hd⟩ := exists_header
          (data := Spec.u32 v.toNat ++ plain ++ tag ++ buf.drop (4 + v.toNat + 16)) (by len)
        rw [hd, Packet.wrapRaw_eq hn'] at hwr
        split_ifs at hwr
    · simp only [hc, if_false] at hrecv
      refine ⟨[], .inr (.inr ⟨body, tag, rest', hb', hrest, hbl, ht,
        .inr (.inl ⟨hm.symm, by omega, ?_⟩)⟩)⟩
      rw [hrecv]; rfl
  · simp only [hm, if_false] at hrecv
    refine ⟨[⟨c.keyLength, Spec.u64 c.counter.toNat, 0, 4⟩,
      ⟨c.keyData, Spec.u64 c.counter.toNat, 0, 32⟩],
      .inr (.inr ⟨body, tag, rest', hb', hrest, hbl, ht, .inl ⟨fun h => hm h.symm, ?_⟩⟩)⟩
    rw [hrecv, ChaCha.use_use]; rfl

end Nora
