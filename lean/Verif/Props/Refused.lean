import Verif.Lemmas.Send
import Verif.Props.Transport
import Verif.Spec.Refused

namespace Nora
open R

/-- a stream that starts with the length `m` -/
theorem In.recv_length {K : Crypto} {c : ChaCha} {buf w : Bytes} {m : Nat} {s : IoSt}
    (h4 : 4 ≤ buf.length) (hc : c.counter.toNat + 1 < 2 ^ 64) (hm : m < 4294967296)
    (hi : s.inp = Spec.sealLength K (Spec.keysOf c) c.counter.toNat (Spec.u32 m) ++ w) :
    (buf.length < 4 + m + 16 ∧ ∃ c' buf', In.recv K c buf s =
      (err (.bufferTooSmall m, c', buf'), { s with inp := w })) ∨
    (4 + m + 16 ≤ buf.length ∧ w.length < m + 16 ∧ ∃ c' buf', In.recv K c buf s =
      (err (.read, c', buf'), { s with inp := [] })) ∨
    ∃ body tag rest, 4 + m + 16 ≤ buf.length ∧ w = body ++ (tag ++ rest) ∧ body.length = m ∧ tag.length = 16 ∧
      ((tag ≠ Spec.mac K (Spec.keysOf c) c.counter.toNat
          (Spec.sealLength K (Spec.keysOf c) c.counter.toNat (Spec.u32 m) ++ body) ∧
        ∃ c' buf', In.recv K c buf s = (err (.cipher, c', buf'), { s with inp := rest })) ∨
       (tag = Spec.mac K (Spec.keysOf c) c.counter.toNat
          (Spec.sealLength K (Spec.keysOf c) c.counter.toNat (Spec.u32 m) ++ body) ∧
        ((m % 8 ≠ 0 ∧ ∃ c' buf', In.recv K c buf s =
          (err (.packet .badAlignment, c', buf'), { s with inp := rest })) ∨
         (m % 8 = 0 ∧ (m = 0 ∨ ∃ x r, Spec.sealBody K (Spec.keysOf c) c.counter.toNat body = x :: r ∧
            m ≤ x.toNat) ∧ ∃ c' buf', In.recv K c buf s =
          (err (.packet .paddingTooLarge, c', buf'), { s with inp := rest })) ∨
         (∃ payload padding, Spec.sealBody K (Spec.keysOf c) c.counter.toNat body =
            UInt8.ofNat padding.length :: (payload ++ padding) ∧ padding.length < 256 ∧ m % 8 = 0 ∧
          ∃ x s', In.recv K c buf s = (ok x, s'))))) := by
  rcases In.recv_cases K c buf s h4 with ⟨e, _⟩ | ⟨l, r, n, h1, h2, h3, h4', u, h5⟩
  · rw [hi] at e; simp at e; omega
  rw [hi] at h1
  obtain ⟨rfl, rfl⟩ := List.append_inj h1 (by simp; omega)
  rw [sealLength_invol] at h4'
  obtain rfl := u32_inj hm h3 h4'
  rcases h5 with ⟨g, e⟩ | ⟨g1, g2, e⟩ | ⟨body, tag, rest, g1, g2, g3, g4, g5⟩
  · exact .inl ⟨g, _, _, e⟩
  · exact .inr (.inl ⟨g1, g2, _, _, e⟩)
  refine .inr (.inr ⟨body, tag, rest, g1, by rw [g2, List.append_assoc], g3, g4, ?_⟩)
  rcases g5 with ⟨g, e⟩ | ⟨_, g, e⟩ | ⟨g, _, ⟨p, q, f1, f2, f3, e⟩ | ⟨x, f, e⟩⟩
  · exact .inl ⟨g, _, _, e⟩
  · omega
  · exact .inr ⟨g, .inr (.inr ⟨p, q, f1, f2, f3, _, _, e⟩)⟩
  · rcases f with ⟨f, rfl⟩ | ⟨f, rfl, f'⟩
    · exact .inr ⟨g, .inl ⟨f, _, _, e⟩⟩
    · exact .inr ⟨g, .inr (.inl ⟨f, f', _, _, e⟩)⟩

/-- the sealed form of a packet that is given as length and body -/
theorem sealed_parts (K : Crypto) (k : Spec.Keys) (n m : Nat) (body rest : Bytes) :
    Spec.sealed K k n (Spec.u32 m ++ body) ++ rest = Spec.sealLength K k n (Spec.u32 m) ++
      (Spec.sealBody K k n body ++ (Spec.mac K k n (Spec.sealLength K k n (Spec.u32 m) ++
        Spec.sealBody K k n body) ++ rest)) := by
  have h1 : (Spec.u32 m ++ body).take 4 = Spec.u32 m := List.take_left' (u32_length m)
  have h2 : (Spec.u32 m ++ body).drop 4 = body := List.drop_left' (u32_length m)
  rw [Spec.sealed, h1, h2]
  simp only [List.append_assoc]

/-- C98: exactly which packets are refused, with which error, and what is left of the stream then -/
theorem C98_refused (K : Crypto) (c : ChaCha) (buf : Bytes) (s : IoSt) (e : InError) (rest : Bytes)
    (h4 : 4 ≤ buf.length) (hc : c.counter.toNat + 1 < 2 ^ 64) :
    (∃ c' buf', In.recv K c buf s = (err (e, c', buf'), { s with inp := rest })) ↔
    Spec.Refused K (Spec.keysOf c) c.counter.toNat buf.length s.inp e rest := by
  constructor
  · rintro ⟨c', buf', h⟩
    rcases In.recv_cases K c buf s h4 with ⟨g, g'⟩ | ⟨l, r, n, h1, h2, h3, h4', _, _⟩
    · rw [h] at g'
      simp only [Prod.mk.injEq, R.err.injEq, IoSt.mk.injEq] at g'
      obtain ⟨⟨rfl, _, _⟩, rfl, _⟩ := g'
      exact .short g
    obtain rfl : l = Spec.sealLength K (Spec.keysOf c) c.counter.toNat (Spec.u32 n) := by
      rw [← h4', sealLength_invol]
    have inj : ∀ {e' c1 buf1 rest'}, In.recv K c buf s = (err (e', c1, buf1), { s with inp := rest' }) →
        e' = e ∧ rest' = rest := by
      intro e' c1 buf1 rest' g
      rw [h] at g
      simp only [Prod.mk.injEq, R.err.injEq, IoSt.mk.injEq] at g
      exact ⟨g.1.1.symm, g.2.1.symm⟩
    rw [h1]
    rcases In.recv_length h4 hc h3 h1 with ⟨g, _, _, e⟩ | ⟨g1, g2, _, _, e⟩ | ⟨body, tag, rest', g1, rfl, rfl, g4, g5⟩
    · obtain ⟨rfl, rfl⟩ := inj e; exact .large h3 g
    · obtain ⟨rfl, rfl⟩ := inj e; exact .ends h3 g1 g2
    have hb : Spec.sealBody K (Spec.keysOf c) c.counter.toNat
      (Spec.sealBody K (Spec.keysOf c) c.counter.toNat body) = body := sealBody_invol ..
    rcases g5 with ⟨g, _, _, e⟩ | ⟨g, ⟨f, _, _, e⟩ | ⟨f, f', _, _, e⟩ | ⟨_, _, _, _, _, _, _, e⟩⟩
    · obtain ⟨rfl, rfl⟩ := inj e; exact .mac h3 g1 g4 g
    · obtain ⟨rfl, rfl⟩ := inj e
      have := Spec.Refused.alignment (K := K) (k := Spec.keysOf c) (n := c.counter.toNat) (N := buf.length)
        (body := Spec.sealBody K (Spec.keysOf c) c.counter.toNat body) (rest := rest') (by simpa using h3)
        (by simpa using g1) (by simpa using f)
      rw [sealed_parts, hb, sealBody_length, ← g] at this
      exact this
    · obtain ⟨rfl, rfl⟩ := inj e
      rcases f' with f' | ⟨x, r, f', f''⟩
      · cases body with
        | cons _ _ => simp at f'
        | nil =>
          have := Spec.Refused.empty (K := K) (k := Spec.keysOf c) (n := c.counter.toNat) (N := buf.length)
            (rest := rest') (by simpa using g1)
          rw [← List.append_nil (Spec.u32 0), sealed_parts] at this
          rw [g]
          exact this
      · have hl := congrArg List.length f'
        rw [sealBody_length] at hl
        rw [f'] at hb
        have := Spec.Refused.padding (K := K) (k := Spec.keysOf c) (n := c.counter.toNat) (N := buf.length)
          (x := x) (r := r) (rest := rest') (by omega) (by omega) (by omega) (by omega)
        rw [sealed_parts, hb, ← hl, ← g] at this
        exact this
    · rw [h] at e; simp at e
  · generalize hw : s.inp = w
    intro h
    cases h with
    | short g =>
      rcases In.recv_cases K c buf s h4 with ⟨_, g'⟩ | ⟨l, r, n, h1, h2, _⟩
      · exact ⟨_, _, g'⟩
      · rw [← hw, h1, List.length_append] at g; omega
    | large g1 g2 =>
      rcases In.recv_length h4 hc g1 hw with ⟨_, e⟩ | ⟨g, _⟩ | ⟨_, _, _, g, _⟩
      · exact e
      · omega
      · omega
    | ends g1 g2 g3 =>
      rcases In.recv_length h4 hc g1 hw with ⟨g, _⟩ | ⟨_, _, e⟩ | ⟨body, tag, r, _, rfl, rfl, g, _⟩
      · omega
      · exact e
      · simp only [List.length_append] at g3; omega
    | @mac body tag _ g1 g2 g3 g4 =>
      rcases In.recv_length h4 hc g1 hw with ⟨g, _⟩ | ⟨_, g, _⟩ | ⟨body', tag', r, _, h1, h2, h3, h5⟩
      · omega
      · simp only [List.length_append] at g; omega
      obtain ⟨rfl, h6⟩ := List.append_inj h1 h2.symm
      obtain ⟨rfl, rfl⟩ := List.append_inj h6 (by omega)
      rcases h5 with ⟨_, e⟩ | ⟨g, _⟩
      · exact e
      · exact absurd g g4
    | @alignment body _ g1 g2 g3 =>
      rw [sealed_parts] at hw
      rcases In.recv_length h4 hc g1 hw with ⟨g, _⟩ | ⟨_, g, _⟩ | ⟨body', tag', r, _, h1, h2, h3, h5⟩
      · omega
      · simp only [List.length_append, sealBody_length, mac_length] at g; omega
      obtain ⟨rfl, h6⟩ := List.append_inj h1 (by rw [h2, sealBody_length])
      obtain ⟨rfl, rfl⟩ := List.append_inj h6 (by rw [h3, mac_length])
      rcases h5 with ⟨g, e⟩ | ⟨_, ⟨_, e⟩ | ⟨g, _⟩ | ⟨_, _, _, _, g, _⟩⟩
      · exact absurd rfl g
      · exact e
      · exact absurd g g3
      · exact absurd g g3
    | empty g2 =>
      rw [← List.append_nil (Spec.u32 0), sealed_parts] at hw
      rcases In.recv_length h4 hc (by omega) hw with ⟨g, _⟩ | ⟨_, g, _⟩ | ⟨body', tag', r, _, h1, h2, h3, h5⟩
      · omega
      · simp only [List.length_append, sealBody_length, mac_length, List.length_nil] at g; omega
      obtain ⟨rfl, h6⟩ := List.append_inj h1 (by rw [h2, sealBody_length, List.length_nil])
      obtain ⟨rfl, rfl⟩ := List.append_inj h6 (by rw [h3, mac_length])
      rcases h5 with ⟨g, e⟩ | ⟨_, ⟨g, e⟩ | ⟨_, _, e⟩ | ⟨_, _, g, _⟩⟩
      · exact absurd rfl g
      · omega
      · exact e
      · rw [sealBody_invol] at g; simp at g
    | @padding x body _ g1 g2 g3 g4 =>
      rw [sealed_parts] at hw
      rcases In.recv_length h4 hc g1 hw with ⟨g, _⟩ | ⟨_, g, _⟩ | ⟨body', tag', r, _, h1, h2, h3, h5⟩
      · omega
      · simp only [List.length_append, sealBody_length, mac_length] at g; omega
      obtain ⟨rfl, h6⟩ := List.append_inj h1 (by rw [h2, sealBody_length])
      obtain ⟨rfl, rfl⟩ := List.append_inj h6 (by rw [h3, mac_length])
      rcases h5 with ⟨g, e⟩ | ⟨_, ⟨g, e⟩ | ⟨_, _, e⟩ | ⟨p, q, g, g', _⟩⟩
      · exact absurd rfl g
      · omega
      · exact e
      · rw [sealBody_invol] at g
        have hl := congrArg List.length g
        injection g with g _
        rw [g, UInt8.toNat_ofNat_of_lt' g'] at g4
        simp only [List.length_cons, List.length_append] at hl g4
        omega

/-- a reader with the keys `k`, the packet number `n` and a buffer of `N` bytes -/
theorem exists_reader (k : Spec.Keys) {n : Nat} (N : Nat) (hn : n + 1 < 2 ^ 64) :
    ∃ (c : ChaCha) (buf : Bytes), Spec.keysOf c = k ∧ c.counter.toNat = n ∧ buf.length = N := by
  refine ⟨⟨k.length, k.data, UInt64.ofNat n, []⟩, List.replicate N 0, rfl, ?_, List.length_replicate⟩
  exact UInt64.toNat_ofNat_of_lt' (by
    have : UInt64.size = 2 ^ 64 := rfl
    omega)

/-- C98: a stream starts with a packet, or with something that is refused, and not with both -/
theorem C98_or_packet (K : Crypto) (k : Spec.Keys) (n N : Nat) (w : Bytes) (h4 : 4 ≤ N)
    (hc : n + 1 < 2 ^ 64) :
    ¬ (∃ e rest, Spec.Refused K k n N w e rest) ↔
    ∃ payload raw rest, Spec.Framed .b8 false payload raw ∧ raw.length + 16 ≤ N ∧
      w = Spec.sealed K k n raw ++ rest := by
  obtain ⟨c, buf, rfl, rfl, rfl⟩ := exists_reader k N hc
  obtain ⟨s, rfl⟩ : ∃ s : IoSt, s.inp = w := ⟨⟨w, [], none, fun _ => 0, []⟩, rfl⟩
  constructor
  · intro h
    rcases In.recv_outcome K c buf s h4 with ⟨⟨e, c', buf'⟩, i, h'⟩ | ⟨h', _⟩ | ⟨_, p, c', buf', i, h', _⟩
    · exact absurd ⟨e, i, (C98_refused K c buf s e i h4 hc).mp ⟨c', buf', h'⟩⟩ h
    · exact absurd hc h'
    · obtain ⟨raw, h1, h2, h3⟩ := In.recv_sealed h4 h'
      exact ⟨p, raw, _, h1, h2, h3⟩
  · rintro ⟨p, raw, rest, h1, h2, h3⟩ ⟨e, rest', h⟩
    obtain ⟨c1, buf1, h⟩ := (C98_refused K c buf s e rest' h4 hc).mpr h
    obtain ⟨c', buf', _, _, _, h'⟩ := C22_recv_framed K c buf p raw rest s h1 h2 hc h3
    rw [h] at h'
    simp at h'

/-- C98: a stream is refused for one reason only -/
theorem C98_one_reason (K : Crypto) (k : Spec.Keys) (n N : Nat) (w : Bytes) (e e' : InError)
    (rest rest' : Bytes) (h4 : 4 ≤ N) (hc : n + 1 < 2 ^ 64) (h : Spec.Refused K k n N w e rest)
    (h' : Spec.Refused K k n N w e' rest') : e = e' ∧ rest = rest' := by
  obtain ⟨c, buf, rfl, rfl, rfl⟩ := exists_reader k N hc
  obtain ⟨s, rfl⟩ : ∃ s : IoSt, s.inp = w := ⟨⟨w, [], none, fun _ => 0, []⟩, rfl⟩
  obtain ⟨c1, buf1, g⟩ := (C98_refused K c buf s e rest h4 hc).mpr h
  obtain ⟨c2, buf2, g'⟩ := (C98_refused K c buf s e' rest' h4 hc).mpr h'
  rw [g] at g'
  simp only [Prod.mk.injEq, R.err.injEq, IoSt.mk.injEq] at g'
  exact ⟨g'.1.1, g'.2.1⟩

/-- a packet with a length of 7, then the same with 8 bytes of which 9 are said to be padding; two bytes;
a packet of 40000 bytes -/
example (K : Crypto) (k : Spec.Keys) : Spec.Refused K k 3 35000
    (Spec.sealed K k 3 (Spec.u32 7 ++ [4, 1, 2, 0, 0, 0, 0]) ++ [1]) (.packet .badAlignment) [1] :=
  .alignment (body := [4, 1, 2, 0, 0, 0, 0]) (by decide) (by decide) (by decide)

example (K : Crypto) (k : Spec.Keys) : Spec.Refused K k 3 35000
    (Spec.sealed K k 3 (Spec.u32 8 ++ [9, 1, 2, 0, 0, 0, 0, 0]) ++ [1]) (.packet .paddingTooLarge) [1] :=
  .padding (by decide) (by decide) (by decide) (by decide)

example (K : Crypto) (k : Spec.Keys) : Spec.Refused K k 3 35000 [1, 2] .read [] := .short (by decide)

example (K : Crypto) (k : Spec.Keys) : Spec.Refused K k 3 35000
    (Spec.sealLength K k 3 (Spec.u32 40000) ++ [1, 2]) (.bufferTooSmall 40000) [1, 2] :=
  .large (by decide) (by decide)

end Nora
