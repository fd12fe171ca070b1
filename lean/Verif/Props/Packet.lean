import Verif.Lemmas.Io
import Verif.Lemmas.Prefix
/-
Properties of packets: C13-C18.

The specification is in Verif/Spec/Packet.lean. `make_payload` is any function that keeps the length
of the slice it is given (it gets a `&mut [u8]`).
-/
namespace Nora
open R

variable {ε : Type}

/-! ### C13 outgoing packets -/

/-- C13: whatever `wrap` returns starts with a legal packet around the payload written by
`make_payload`, padded with random bytes; the padding is the least possible. -/
theorem C13_wrap_legal (buf : Bytes) (bs : BlockSize) (mode : Bool)
    (mp : Bytes → R ε (Nat × Bytes)) (rng rng' : Tape) (p : Packet) (n : Nat) (new : Bytes)
    (hm : mp (buf.drop 5) = ok (n, new)) (hl : new.length = (buf.drop 5).length)
    (h : Packet.wrap buf bs mode mp rng = ok (p, rng')) :
    ∃ k raw, (p.asRaw : R ε Bytes) = ok raw ∧ n ≤ new.length ∧
      Spec.PacketOf bs mode (new.take n) (rng.bytes k) raw ∧ Spec.LeastPad bs mode n k ∧
      rng' = rng.skip k ∧ p.data.length = buf.length ∧ raw.length = 5 + n + k ∧
      (mode = true → 16 ≤ raw.length) := by
  obtain ⟨k, hk⟩ := leastPad_exists bs mode n
  have k67 := leastPad_le hk
  by_cases h5 : 5 ≤ buf.length
  · have hl' : new.length + 5 = buf.length := by simp at hl; omega
    rw [Packet.wrap_eq h5 hm hl' hk] at h
    split_ifs at h with hc
    rw [R.ok.injEq, Prod.mk.injEq] at h
    obtain ⟨rfl, rfl⟩ := h
    have hn : (new.take n).length = n := by len
    have hraw : (Packet.asRaw ⟨Spec.u32 (1 + n + k) ++ UInt8.ofNat k :: (new.take n ++
        (rng.bytes k ++ new.drop (n + k)))⟩ : R ε Bytes) =
        ok (Spec.u32 (1 + n + k) ++ (UInt8.ofNat k :: (new.take n ++ rng.bytes k))) := by
      rw [(Packet.asRaw_eq hc.2 _ (by len) 0 (by len)).1]
      congr 2
      have : 1 + n + k = (new.take n ++ rng.bytes k).length + 1 := by len
      rw [this, List.take_succ_cons, ← List.append_assoc, List.take_left]
    refine ⟨k, _, hraw, by omega, ⟨?_, ?_, ?_, ?_, ?_⟩, hk, rfl, by len, by len, ?_⟩
    · rw [hn, Tape.bytes_length]
    · rw [Tape.bytes_length]; exact hk.1
    · rw [Tape.bytes_length]; omega
    · rw [hn, Tape.bytes_length]; exact hk.2.1
    · rw [hn, Tape.bytes_length]; exact hc.2
    · intro hmode
      subst hmode
      have ha := hk.2.1
      have hk4 := hk.1
      have : 16 ≤ 5 + n + k := by
        cases bs <;> simp only [Spec.Aligned, Spec.blockBytes, if_true] at ha <;> omega
      len
  · rw [Packet.wrap, splitAtP_of_lt (by omega)] at h
    cases h

/-- C13: the bounds on the padding are tighter than the RFC requires -/
theorem C13_padding_bound (bs : BlockSize) (mode : Bool) (n k : Nat)
    (h : Spec.LeastPad bs mode n k) : k < 4 + Spec.blockBytes bs := by
  obtain ⟨h4, ha, hm⟩ := h
  refine Classical.byContradiction fun hc => ?_
  have h1 : Spec.Aligned bs mode (1 + n + (k - Spec.blockBytes bs)) := by
    cases bs <;> cases mode <;>
      simp only [Spec.Aligned, Spec.blockBytes, if_true, if_false, Bool.false_eq_true] at * <;> omega
  have := hm _ (by omega) h1
  cases bs <;> simp only [Spec.blockBytes] at * <;> omega

/-- the 2-byte payload `5 7` wrapped for 8-byte blocks -/
example : (Packet.wrap (ε := Unit) (List.replicate 20 9) .b8 true
      (fun b => ok (2, [5, 7] ++ b.drop 2)) (fun i => UInt8.ofNat (100 + i))).map (·.1.data) =
    ok [0, 0, 0, 12, 9, 5, 7, 100, 101, 102, 103, 104, 105, 106, 107, 108, 9, 9, 9, 9] := by decide

example : Spec.LeastPad .b8 true 2 9 := by
  refine ⟨by omega, by decide, ?_⟩
  intro j h1 h2
  simp only [Spec.Aligned, Spec.blockBytes, if_true] at h2
  omega

/-! ### C14 round trip -/

/-- C14: the raw bytes of a wrapped packet, followed by anything, are accepted and give the payload
back. -/
theorem C14_round_trip (buf : Bytes) (bs : BlockSize) (mode : Bool)
    (mp : Bytes → R ε (Nat × Bytes)) (rng rng' : Tape) (p : Packet) (n : Nat) (new : Bytes)
    (hm : mp (buf.drop 5) = ok (n, new)) (hl : new.length = (buf.drop 5).length)
    (h : Packet.wrap buf bs mode mp rng = ok (p, rng')) :
    ∃ raw, (p.asRaw : R ε Bytes) = ok raw ∧ (p.payload : R ε Bytes) = ok (new.take n) ∧
      raw = p.data.take raw.length ∧
      ∀ rest, ∃ q, Packet.wrapRaw (raw ++ rest) mode bs = ok q ∧
        (q.payload : R ε Bytes) = ok (new.take n) ∧ (q.asRaw : R ε Bytes) = ok raw := by
  obtain ⟨k, raw, h1, _, h2, _⟩ := C13_wrap_legal buf bs mode mp rng rng' p n new hm hl h
  have hraw : raw = p.data.take raw.length := by
    simp only [Packet.asRaw, bind_eq_ok, idxTo] at h1
    obtain ⟨l, _, h1⟩ := h1
    split_ifs at h1 with hl
    injection h1 with h1
    rw [← h1]; simp
  have hp : p.data = raw ++ p.data.drop raw.length := by
    have := (List.take_append_drop raw.length p.data).symm
    rwa [← hraw] at this
  refine ⟨raw, h1, ?_, hraw, fun rest => ⟨⟨raw ++ rest⟩, ?_⟩⟩
  · have := (Packet.wrapRaw_packetOf (ε := ε) h2 (p.data.drop raw.length)).2.1
    rw [← hp] at this
    exact this
  · exact Packet.wrapRaw_packetOf h2 rest

/-- C14: `into_raw(extra)` gives the packet and the next `extra` bytes of the buffer -/
theorem C14_into_raw (bs : BlockSize) (mode : Bool) (payload padding raw mac rest : Bytes)
    (h : Spec.PacketOf bs mode payload padding raw) :
    (Packet.intoRaw ⟨raw ++ mac ++ rest⟩ mac.length : R ε Bytes) = ok (raw ++ mac) :=
  Packet.intoRaw_packetOf mac rest h

/-! ### C15 access -/

/-- C15: an accepted packet that fits its buffer is completely determined by payload and padding, and
every accessor returns the right part. -/
theorem C15_access (data : Bytes) (bs : BlockSize) (mode : Bool) (p : Packet) (L : Nat)
    (r : Bytes) (hL : L < 4294967296) (hd : data = Spec.u32 L ++ r) (hfit : L ≤ r.length)
    (h : Packet.wrapRaw data mode bs = ok p) :
    ∃ payload padding rest,
      r = UInt8.ofNat padding.length :: (payload ++ padding ++ rest) ∧
      payload.length + padding.length + 1 = L ∧ padding.length ≤ 255 ∧ Spec.Aligned bs mode L ∧
      (p.packetLen : R ε Nat) = ok L ∧
      (p.paddingLen : R ε Nat) = ok padding.length ∧
      (p.payloadLen : R ε Nat) = ok payload.length ∧
      (p.payload : R ε Bytes) = ok payload ∧
      (p.packetBytes : R ε Bytes) = ok (UInt8.ofNat padding.length :: (payload ++ padding)) ∧
      (p.asRaw : R ε Bytes) = ok (data.take (4 + L)) := by
  cases r with
  | nil =>
    obtain rfl : L = 0 := by simpa using hfit
    subst hd
    have : (Packet.wrapRaw (Spec.u32 0 ++ []) mode bs).map (fun _ => ()) ≠ ok () := by
      cases bs <;> cases mode <;> decide
    rw [h] at this; exact absurd rfl this
  | cons k r =>
    subst hd
    rw [Packet.wrapRaw_eq hL] at h
    split_ifs at h with ha hk
    injection h with h
    subst h
    have hk255 : k.toNat < 256 := k.toNat_lt
    have hr : L ≤ 1 + r.length := by simp at hfit; omega
    have hpl : (r.take (L - 1 - k.toNat)).length = L - 1 - k.toNat := by len
    have hpd : ((r.drop (L - 1 - k.toNat)).take k.toNat).length = k.toNat := by len
    have hke : UInt8.ofNat k.toNat = k := by simp
    have hsplit : r.take (L - 1) = r.take (L - 1 - k.toNat) ++
        (r.drop (L - 1 - k.toNat)).take k.toNat := by
      rw [← List.take_add]; congr 1; omega
    refine ⟨r.take (L - 1 - k.toNat), (r.drop (L - 1 - k.toNat)).take k.toNat, r.drop (L - 1),
      ?_, ?_, ?_, ?_, ?_, ?_, ?_, ?_, ?_, ?_⟩
    · rw [hpd, hke, ← hsplit, List.take_append_drop]
    · rw [hpl, hpd]; omega
    · rw [hpd]; omega
    · exact ha
    · exact Packet.packetLen_u32 hL _
    · rw [hpd]; exact Packet.paddingLen_u32 _ _ _
    · rw [hpl, Packet.payloadLen_eq hL _ _ (by omega)]; congr 1; omega
    · exact Packet.payload_eq hL _ _ (by omega) hr
    · rw [Packet.packetBytes_eq hL _ hfit, hpd, hke, ← hsplit]
      have hL1 : 1 ≤ L := by have := Nat.lt_of_not_le hk; omega
      obtain ⟨m, hm⟩ : ∃ m, L = m + 1 := ⟨L - 1, by omega⟩
      subst hm; rfl
    · rw [(Packet.asRaw_eq hL _ hfit 0 hfit).1]
      congr 1
      rw [List.take_append, List.take_of_length_le (l := Spec.u32 L) (by len)]
      congr 2; len

/-- C15: on a buffer of at least five bytes `wrap_raw` does not panic -/
theorem C15_wrapRaw_total (data : Bytes) (bs : BlockSize) (mode : Bool) (h : 5 ≤ data.length) :
    Packet.wrapRaw data mode bs ≠ R.panic := by
  obtain ⟨n, k, r, hn, rfl⟩ := exists_header h
  rw [Packet.wrapRaw_eq hn]
  split_ifs <;> simp

example : (Packet.wrapRaw (Spec.u32 12 ++ [9, 5, 7, 0, 1, 2, 3, 4, 5, 6, 7, 8, 77]) true .b8).map
    (fun p => (p.payload : R Unit Bytes)) = ok (ok [5, 7]) := by decide

/-! ### C16 room -/

/-- C16: `wrap` panics iff header, payload and padding do not fit the buffer or the length does not
fit 32 bits (with a payload writer that succeeds); it never returns an error. -/
theorem C16_panics_iff (buf : Bytes) (bs : BlockSize) (mode : Bool)
    (mp : Bytes → R ε (Nat × Bytes)) (rng : Tape) (n k : Nat) (new : Bytes)
    (hm : mp (buf.drop 5) = ok (n, new)) (hl : new.length = (buf.drop 5).length)
    (hk : Spec.LeastPad bs mode n k) :
    (Packet.wrap buf bs mode mp rng = R.panic ↔
      buf.length < 5 + n + k ∨ 4294967296 ≤ 1 + n + k) ∧
    (¬ (buf.length < 5 + n + k ∨ 4294967296 ≤ 1 + n + k) →
      ∃ p, Packet.wrap buf bs mode mp rng = ok (p, rng.skip k) ∧
        p.data.length = buf.length ∧
        p.data.drop (5 + n + k) = new.drop (n + k)) := by
  by_cases h5 : 5 ≤ buf.length
  · rw [Packet.wrap_eq h5 hm (by simp at hl; omega) hk]
    have hl' : new.length + 5 = buf.length := by simp at hl; omega
    constructor
    · split_ifs with hc
      · simp only [false_iff]; omega
      · simp only [true_iff]; omega
    · intro hc
      rw [if_pos (by omega)]
      refine ⟨_, rfl, by len, ?_⟩
      have e : Spec.u32 (1 + n + k) ++ UInt8.ofNat k :: (new.take n ++ (rng.bytes k ++
          new.drop (n + k))) = (Spec.u32 (1 + n + k) ++ UInt8.ofNat k :: (new.take n ++
          rng.bytes k)) ++ new.drop (n + k) := by simp
      rw [e, List.drop_append, List.drop_eq_nil_of_le (by len), List.nil_append]
      rw [List.drop_drop]
      congr 1
      len
  · have : Packet.wrap buf bs mode mp rng = R.panic := by
      rw [Packet.wrap, splitAtP_of_lt (by omega)]; rfl
    rw [this]
    constructor
    · simp only [true_iff]; omega
    · intro hc; omega

/-- C16: so a payload writer that touches only the payload leaves everything after the packet as it
was -/
theorem C16_tail_untouched (buf : Bytes) (bs : BlockSize) (mode : Bool) (payload : Bytes)
    (rng rng' : Tape) (p : Packet) (hlen : payload.length ≤ (buf.drop 5).length)
    (h : Packet.wrap (ε := ε) buf bs mode
      (fun b => ok (payload.length, payload ++ b.drop payload.length)) rng = ok (p, rng')) :
    ∃ raw, (p.asRaw : R ε Bytes) = ok raw ∧ p.data = raw ++ buf.drop raw.length := by
  have hl : (payload ++ (buf.drop 5).drop payload.length).length = (buf.drop 5).length := by
    rw [List.length_append, List.length_drop]; omega
  obtain ⟨k, raw, h1, _, h2, hk, _, hpl, hrl, _⟩ :=
    C13_wrap_legal buf bs mode _ rng rng' p _ _ rfl hl h
  have h3 := C16_panics_iff (ε := ε) buf bs mode
    (fun b => ok (payload.length, payload ++ b.drop payload.length)) rng _ k _ rfl hl hk
  by_cases hc : buf.length < 5 + payload.length + k ∨ 4294967296 ≤ 1 + payload.length + k
  · rw [h3.1.mpr hc] at h; cases h
  · obtain ⟨q, hq, _, hd⟩ := h3.2 hc
    rw [h] at hq
    injection hq with hq
    injection hq with hq _
    subst hq
    refine ⟨raw, h1, ?_⟩
    obtain ⟨raw', h1', _, hr, _⟩ := C14_round_trip buf bs mode _ rng rng' p _ _ rfl hl h
    rw [h1] at h1'
    injection h1' with h1'
    subst h1'
    have e : p.data.drop raw.length = buf.drop raw.length := by
      rw [hrl, hd]
      simp only [List.drop_append, List.drop_drop]
      rw [List.drop_eq_nil_of_le (by len), List.nil_append]
      congr 1; len
    rw [← e]
    have := (List.take_append_drop raw.length p.data).symm
    rwa [← hr] at this

/-! ### C17 reading -/

/-- C17 in full: on every stream and every buffer of at least five bytes the reader returns a packet
or an error. -/
def C17_statement : Prop :=
  ∀ (buf : Bytes) (mode : Bool) (bs : BlockSize) (s : IoSt), 5 ≤ buf.length →
    (PacketIo.parse buf mode bs s).1 ≠ R.panic

/-- C17, success: exactly the announced packet was consumed and nothing else of the connection
changed; the packet in the buffer is the one on the stream; the bytes of the buffer after it are
untouched. -/
theorem C17_consumed (buf : Bytes) (mode : Bool) (bs : BlockSize) (s s' : IoSt) (p : Packet)
    (h4 : 4 ≤ buf.length) (h : PacketIo.parse buf mode bs s = (ok p, s')) :
    ∃ n body, s.inp = Spec.u32 n ++ body ++ s'.inp ∧ body.length = n ∧ 8 ≤ n ∧
      4 + n ≤ buf.length ∧ n < 4294967296 ∧ s' = { s with inp := s'.inp } ∧
      p.data = Spec.u32 n ++ body ++ buf.drop (4 + n) ∧
      Packet.wrapRaw p.data mode bs = ok p ∧ (p.packetLen : R ε Nat) = ok n := by
  rcases PacketIo.parse_cases (mode := mode) (bs := bs) (s := s) h4 with
    ⟨_, e⟩ | ⟨n, rest, hn, hi, ⟨_, e⟩ | ⟨_, _, e⟩ | ⟨_, _, _, e⟩ | ⟨_, _, _, e⟩ | ⟨h8, hb, hr, e⟩⟩
  · rw [h] at e; simp at e
  · rw [h] at e; simp at e
  · rw [h] at e; simp at e
  · rw [h] at e; simp at e
  · rw [h] at e; simp at e
  · rw [h, Prod.mk.injEq] at e
    obtain ⟨e1, e2⟩ := e
    have e1 := e1.symm
    rw [mapErr_eq_ok] at e1
    have hp : p.data = Spec.u32 n ++ (rest.take n ++ buf.drop (4 + n)) := by
      have h5 : 5 ≤ (Spec.u32 n ++ (rest.take n ++ buf.drop (4 + n))).length := by len
      obtain ⟨n', k, r, hn', hd⟩ := exists_header h5
      rw [hd] at e1 ⊢
      rw [Packet.wrapRaw_eq hn'] at e1
      split_ifs at e1
      injection e1 with e1
      rw [← e1]
    have es : s'.inp = rest.drop n := by rw [e2]
    refine ⟨n, rest.take n, ?_, by len, h8, hb, hn, ?_, ?_, ?_, ?_⟩
    · rw [es, List.append_assoc, List.take_append_drop, hi]
    · rw [es]; exact e2
    · rw [hp, List.append_assoc]
    · rw [hp]; exact e1
    · have : p = ⟨p.data⟩ := rfl
      rw [this, hp, Packet.packetLen_u32 hn]

/-- C17, as far as it holds: the reader panics iff the announced length `n` fits the buffer but not
the part of it behind the length field. -/
theorem C17_no_panic_partial (buf : Bytes) (mode : Bool) (bs : BlockSize) (s : IoSt)
    (h : 5 ≤ buf.length) :
    (PacketIo.parse buf mode bs s).1 = R.panic ↔
      ∃ n rest, s.inp = Spec.u32 n ++ rest ∧ 8 ≤ n ∧ n ≤ buf.length ∧ buf.length < 4 + n ∧
        n < 4294967296 := by
  have h4 : 4 ≤ buf.length := by omega
  rcases PacketIo.parse_cases (mode := mode) (bs := bs) (s := s) h4 with
    ⟨hs, e⟩ | ⟨n, rest, hn, hi, e⟩
  · rw [e]
    simp only [reduceCtorEq, false_iff]
    rintro ⟨n, rest, hi, _⟩
    rw [hi] at hs; simp at hs; omega
  · have key : (∃ n rest, s.inp = Spec.u32 n ++ rest ∧ 8 ≤ n ∧ n ≤ buf.length ∧
        buf.length < 4 + n ∧ n < 4294967296) ↔ 8 ≤ n ∧ n ≤ buf.length ∧ buf.length < 4 + n := by
      constructor
      · rintro ⟨n', rest', hi', a, b, c, d⟩
        rw [hi] at hi'
        obtain ⟨rfl, _⟩ := u32Nat_app_inj hn d hi'
        exact ⟨a, b, c⟩
      · rintro ⟨a, b, c⟩
        exact ⟨n, rest, hi, a, b, c, hn⟩
    rw [key]
    rcases e with ⟨h1, e⟩ | ⟨h1, h2, e⟩ | ⟨h1, h2, h3, e⟩ | ⟨h1, h2, h3, e⟩ | ⟨h1, h2, h3, e⟩
    · rw [e]; simp only [reduceCtorEq, false_iff]; omega
    · rw [e]; simp only [reduceCtorEq, false_iff]; omega
    · rw [e]; simp only [true_iff]; omega
    · rw [e]; simp only [reduceCtorEq, false_iff]; omega
    · rw [e]
      have : (Packet.wrapRaw (Spec.u32 n ++ (rest.take n ++ buf.drop (4 + n))) mode bs).mapErr
          PacketParseError.wrapRaw ≠ R.panic := by
        have := C15_wrapRaw_total (Spec.u32 n ++ (rest.take n ++ buf.drop (4 + n))) bs mode (by len)
        revert this
        cases Packet.wrapRaw (Spec.u32 n ++ (rest.take n ++ buf.drop (4 + n))) mode bs <;>
          simp [R.mapErr]
      simp only [this, false_iff]; omega

/-- C17, refuted as stated: for every buffer of at least 8 bytes (and at most 4 GiB) the peer can make
the reader panic by announcing a packet as long as the buffer. -/
theorem C17_refuted : ¬ C17_statement := by
  intro h
  refine h (List.replicate 8 0) true .b8
    { inp := [0, 0, 0, 8], out := [], wcap := none, rng := fun _ => 0, log := [] } (by decide) ?_
  rw [C17_no_panic_partial (h := by decide)]
  exact ⟨8, [], rfl, by decide, by decide, by decide, by decide⟩

theorem C17_refuted_every_buffer (buf : Bytes) (mode : Bool) (bs : BlockSize) (s : IoSt)
    (rest : Bytes) (h8 : 8 ≤ buf.length) (h32 : buf.length < 4294967296)
    (hi : s.inp = Spec.u32 buf.length ++ rest) :
    (PacketIo.parse buf mode bs s).1 = R.panic :=
  (C17_no_panic_partial buf mode bs s (by omega)).mpr
    ⟨buf.length, rest, hi, h8, by omega, by omega, h32⟩

/-- C17, for bounded streams and the 65536-byte buffer of the server: no panic for every announced
length that a server ought to accept, or that is over-long by more than 4 bytes -/
theorem C17_server_buffer_partial (buf : Bytes) (mode : Bool) (bs : BlockSize) (s : IoSt)
    (n : Nat) (rest : Bytes) (hb : 5 ≤ buf.length) (hn : n < 4294967296)
    (hi : s.inp = Spec.u32 n ++ rest) (h : 4 + n ≤ buf.length ∨ buf.length < n) :
    (PacketIo.parse buf mode bs s).1 ≠ R.panic := by
  intro hp
  obtain ⟨n', rest', hi', a, b, c, d⟩ := (C17_no_panic_partial buf mode bs s hb).mp hp
  rw [hi] at hi'
  obtain ⟨rfl, _⟩ := u32Nat_app_inj hn d hi'
  omega

example : (PacketIo.parse (List.replicate 20 0) true .b8
    { inp := Spec.u32 12 ++ [9, 5, 7, 0, 1, 2, 3, 4, 5, 6, 7, 8, 77], out := [], wcap := none,
      rng := fun _ => 0, log := [] }).1 =
    ok ⟨Spec.u32 12 ++ [9, 5, 7, 0, 1, 2, 3, 4, 5, 6, 7, 8, 0, 0, 0, 0]⟩ := by decide

/-! ### C18 framing -/

/-- read `n` packets in a row, re-using the buffer -/
def readPackets (mode : Bool) (bs : BlockSize) : Nat → Bytes → M PacketParseError (List Bytes)
  | 0, _ => pure []
  | n + 1, buf => do
    let p ← PacketIo.parse buf mode bs
    let x ← M.lift p.payload
    let xs ← readPackets mode bs n p.data
    pure (x :: xs)

/-- wrap payloads one after the other, each into some buffer, and concatenate the raw packets -/
def wrapPackets (mode : Bool) (bs : BlockSize) : List (Bytes × Bytes) → Tape → R Unit Bytes
  | [], _ => ok []
  | (payload, buf) :: rest, rng => do
    let (p, rng) ← Packet.wrap buf bs mode
      (fun b => ok (payload.length, payload ++ b.drop payload.length)) rng
    let raw ← p.asRaw
    let raws ← wrapPackets mode bs rest rng
    ok (raw ++ raws)

/-- C18: one packet -/
theorem C18_one (buf : Bytes) (mode : Bool) (bs : BlockSize) (s : IoSt)
    (payload padding raw rest : Bytes) (h : Spec.PacketOf bs mode payload padding raw)
    (hfit : raw.length ≤ buf.length) (hi : s.inp = raw ++ rest) :
    ∃ p, PacketIo.parse buf mode bs s = (ok p, { s with inp := rest }) ∧
      (p.payload : R ε Bytes) = ok payload ∧ p.data = raw ++ buf.drop raw.length := by
  have hb := h.bytes
  have hf := h.fits
  have hm := h.minPad
  have hrl : raw.length = 4 + (1 + payload.length + padding.length) := by rw [hb]; len
  have h8 : 8 ≤ 1 + payload.length + padding.length := by
    have ha := h.aligned
    cases bs <;> cases mode <;>
      simp only [Spec.Aligned, Spec.blockBytes, if_true, if_false, Bool.false_eq_true] at ha <;>
      omega
  rcases PacketIo.parse_cases (mode := mode) (bs := bs) (s := s) (show 4 ≤ buf.length by omega) with
    ⟨hs, e⟩ | ⟨n, r, hn, hi', e⟩
  · rw [hi] at hs; simp at hs; omega
  · have e0 : s.inp = Spec.u32 (1 + payload.length + padding.length) ++
        ((UInt8.ofNat padding.length :: (payload ++ padding)) ++ rest) := by
      rw [hi, hb]; simp
    rw [e0] at hi'
    obtain ⟨rfl, hr⟩ := u32Nat_app_inj hf hn hi'
    subst hr
    rcases e with ⟨h1, e⟩ | ⟨h1, h2, e⟩ | ⟨h1, h2, h3, e⟩ | ⟨h1, h2, h3, e⟩ | ⟨h1, h2, h3, e⟩
    · omega
    · omega
    · omega
    · simp at h3; omega
    · have ht : ((UInt8.ofNat padding.length :: (payload ++ padding)) ++ rest).take
          (1 + payload.length + padding.length) = UInt8.ofNat padding.length ::
            (payload ++ padding) := by
        have : 1 + payload.length + padding.length =
          (UInt8.ofNat padding.length :: (payload ++ padding)).length := by len
        rw [this, List.take_left]
      have hd : ((UInt8.ofNat padding.length :: (payload ++ padding)) ++ rest).drop
          (1 + payload.length + padding.length) = rest := by
        have : 1 + payload.length + padding.length =
          (UInt8.ofNat padding.length :: (payload ++ padding)).length := by len
        rw [this, List.drop_left]
      rw [ht, hd, ← List.append_assoc, ← hb] at e
      have hw := Packet.wrapRaw_packetOf (ε := ε) h
        (buf.drop (4 + (1 + payload.length + padding.length)))
      rw [hw.1] at e
      refine ⟨_, e, hw.2.1, ?_⟩
      rw [hrl]

/-- C18: any number of legal packets back to back, with whatever follows, are read one by one; the
stream is left right behind the last one. -/
theorem C18_stream (mode : Bool) (bs : BlockSize) (ps : List (Bytes × Bytes × Bytes)) (buf : Bytes)
    (s : IoSt) (rest : Bytes)
    (h : ∀ x ∈ ps, Spec.PacketOf bs mode x.1 x.2.1 x.2.2 ∧ x.2.2.length ≤ buf.length)
    (hi : s.inp = (ps.map (·.2.2)).flatten ++ rest) :
    readPackets mode bs ps.length buf s = (ok (ps.map (·.1)), { s with inp := rest }) := by
  induction ps generalizing buf s with
  | nil =>
    simp only [List.map_nil, List.flatten_nil, List.nil_append] at hi
    subst hi; rfl
  | cons x ps ih =>
    obtain ⟨hx, hfit⟩ := h x (List.mem_cons_self ..)
    obtain ⟨p, hp, hpay, hdata⟩ := C18_one (ε := PacketParseError) buf mode bs s x.1 x.2.1 x.2.2
      ((ps.map (·.2.2)).flatten ++ rest) hx hfit (by rw [hi]; simp)
    rw [List.length_cons, readPackets, M.bind_ok hp, hpay, M.lift_ok_bind]
    have hl : p.data.length = buf.length := by rw [hdata]; len
    rw [M.bind_ok (ih p.data { s with inp := (ps.map (·.2.2)).flatten ++ rest }
      (fun y hy => by rw [hl]; exact h y (List.mem_cons_of_mem _ hy)) rfl)]
    rfl

/-- C18: packets made by `wrap`, in any buffers, are read back by the reader -/
theorem C18_wrapped_stream (mode : Bool) (bs : BlockSize) (ps : List (Bytes × Bytes)) (rng : Tape)
    (buf : Bytes) (s : IoSt) (rest bytes : Bytes)
    (hfit : ∀ x ∈ ps, x.1.length + 5 ≤ x.2.length ∧ x.2.length ≤ buf.length)
    (h : wrapPackets mode bs ps rng = ok bytes) (hi : s.inp = bytes ++ rest) :
    readPackets mode bs ps.length buf s = (ok (ps.map (·.1)), { s with inp := rest }) := by
  have : ∃ qs : List (Bytes × Bytes × Bytes), qs.map (·.1) = ps.map (·.1) ∧
      qs.length = ps.length ∧ bytes = (qs.map (·.2.2)).flatten ∧
      ∀ x ∈ qs, Spec.PacketOf bs mode x.1 x.2.1 x.2.2 ∧ x.2.2.length ≤ buf.length := by
    clear hi
    induction ps generalizing rng bytes with
    | nil =>
      injection h with h
      exact ⟨[], rfl, rfl, h.symm, by simp⟩
    | cons x ps ih =>
      obtain ⟨payload, b⟩ := x
      simp only [wrapPackets, bind_eq_ok, R.ok.injEq] at h
      obtain ⟨⟨p, rng'⟩, hw, raw, hraw, raws, hraws, rfl⟩ := h
      obtain ⟨hf1, hf2⟩ := hfit (payload, b) (List.mem_cons_self ..)
      simp only at hf1 hf2
      obtain ⟨k, raw', h1, h2, h3, h4, h5, h6, h7, h8⟩ :=
        C13_wrap_legal b bs mode _ rng rng' p _ _ rfl (by len) hw
      rw [hraw] at h1
      injection h1 with h1
      subst h1
      have e1 : (payload ++ (b.drop 5).drop payload.length).take payload.length = payload :=
        List.take_left
      rw [e1] at h3
      obtain ⟨qs, q1, q2, q3, q4⟩ := ih rng' raws
        (fun y hy => hfit y (List.mem_cons_of_mem _ hy)) hraws
      refine ⟨(payload, rng.bytes k, raw) :: qs, by simp [q1], by simp [q2], by simp [q3], ?_⟩
      intro y hy
      rcases List.mem_cons.mp hy with rfl | hy
      · refine ⟨h3, ?_⟩
        have : raw.length ≤ p.data.length := by
          obtain ⟨_, r1, _, r2, _⟩ := C14_round_trip b bs mode _ rng rng' p _ _ rfl (by len) hw
          rw [hraw] at r1
          injection r1 with r1
          subst r1
          rw [r2]; simp; omega
        show raw.length ≤ buf.length
        omega
      · exact q4 y hy
  obtain ⟨qs, q1, q2, q3, q4⟩ := this
  rw [← q1, ← q2]
  exact C18_stream mode bs qs buf s rest q4 (by rw [hi, q3])

example : (wrapPackets true .b8 [([5, 7], List.replicate 16 0), ([], List.replicate 30 1)]
    (fun i => UInt8.ofNat i)) = ok (Spec.u32 12 ++ [9, 5, 7, 0, 1, 2, 3, 4, 5, 6, 7, 8] ++
      (Spec.u32 12 ++ [11, 9, 10, 11, 12, 13, 14, 15, 16, 17, 18, 19])) := by decide


end Nora
