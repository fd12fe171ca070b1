import Verif.Props.Deaf
/-
C116: what a client can read if the writes of some packets were dropped.
-/
namespace Nora
open R Server

/-- what is written of packets, if of each only this many bytes are written; they are sealed with consecutive
numbers -/
def Spec.parts (K : Crypto) (k : Spec.Keys) : Nat → List (Bytes × Nat) → Bytes
  | _, [] => []
  | n, (raw, m) :: l => (Spec.sealed K k n raw).take m ++ Spec.parts K k (n + 1) l

/-- these payloads are put into these packets, with the least padding, which is taken from the random numbers; the
packets have at most 35000 bytes -/
def Spec.LeastPadded : Tape → List Bytes → List Bytes → Prop
  | _, [], raws => raws = []
  | r, p :: ps, raws => ∃ j raw raws', raws = raw :: raws' ∧ Spec.LeastPad .b8 false p.length j ∧
      Spec.PacketOf .b8 false p (r.bytes j) raw ∧ raw.length + 16 ≤ 35000 ∧ Spec.LeastPadded (r.skip j) ps raws'

/-- all of the packet was written -/
def Spec.Complete (x : Bytes × Nat) : Prop := x.1.length + 16 ≤ x.2

/-- Nothing is forged in what was written: wherever bytes followed by their MAC under packet number `start + i` occur
in it, this is the `i`-th packet, all of it was written, and it is where it was written. -/
def Spec.Genuine (K : Crypto) (k : Spec.Keys) (start : Nat) (l : List (Bytes × Nat)) : Prop :=
  ∀ pre cov post i, i ≤ l.length → Spec.parts K k start l = pre ++ cov ++ Spec.mac K k (start + i) cov ++ post →
    ∃ x, l[i]? = some x ∧ Spec.Complete x ∧ pre = Spec.parts K k start (l.take i) ∧
      cov = Spec.sealLength K k (start + i) (x.1.take 4) ++ Spec.sealBody K k (start + i) (x.1.drop 4)

theorem padded_length : ∀ {ps : List Bytes} {r : Tape} {raws : List Bytes}, Spec.LeastPadded r ps raws →
    raws.length = ps.length
  | [], _, _, h => by rw [show _ = [] from h]
  | p :: ps, r, _, ⟨j, raw, raws', rfl, _, _, _, h⟩ => by
    rw [List.length_cons, List.length_cons, padded_length h]

theorem sealed_len {p pad raw : Bytes} {K : Crypto} {k : Spec.Keys} {n : Nat}
    (h : Spec.PacketOf .b8 false p pad raw) : (Spec.sealed K k n raw).length = raw.length + 16 := by
  have hb := h.bytes
  have : 4 ≤ raw.length := by rw [hb]; simp
  rw [Spec.sealed]
  simp
  omega

/-- what was written, packet by packet -/
theorem written_parts {K : Crypto} {k : Spec.Keys} {D F : Prop} {n : Nat} {r r' : Tape} {ps : List Bytes} {w : Bytes}
    (h : Spec.Written K k D F n r ps w r') :
    ∃ l : List (Bytes × Nat), Spec.LeastPadded r ps (l.map (·.1)) ∧ w = Spec.parts K k n l ∧
      (∀ i x, l[i]? = some x → ¬ Spec.Complete x → D ∨ F ∧ i + 1 = l.length) ∧
      n + ps.length ≤ max n (2 ^ 64 - 1) := by
  induction h with
  | nil => exact ⟨[], rfl, rfl, by simp, by simp; omega⟩
  | @cons n r p j raw m ps w r' h1 h2 h3 h4 h5 h6 ih =>
    obtain ⟨l, i1, i2, i3, i4⟩ := ih
    refine ⟨(raw, m) :: l, ⟨j, raw, _, rfl, h1, h2, h3, i1⟩, by rw [Spec.parts, i2], ?_, ?_⟩
    · rintro (_ | i) x hx hn
      · cases hx
        rw [sealed_len h2] at h5
        rcases h5 (by unfold Spec.Complete at hn; simp only at hn; omega) with h | ⟨h, rfl⟩
        · exact .inl h
        · refine .inr ⟨h, ?_⟩
          have := padded_length i1
          simp only [List.length_map, List.length_nil] at this
          simp [this]
      · rcases i3 i x (by simpa using hx) hn with h | ⟨h, h'⟩
        · exact .inl h
        · exact .inr ⟨h, by simp [h']⟩
    · rw [List.length_cons]; omega

/-- the packets at the beginning that were written as a whole are a stream -/
theorem parts_stream {K : Crypto} {k : Spec.Keys} : ∀ {ps : List Bytes} {l : List (Bytes × Nat)} {n : Nat} {r : Tape}
    (j : Nat), Spec.LeastPadded r ps (l.map (·.1)) → (∀ i x, i < j → l[i]? = some x → Spec.Complete x) →
    ∃ rest, Spec.Stream K k n (ps.take j) (Spec.parts K k n l) rest
  | _, l, n, _, 0, _, _ => ⟨_, by rw [List.take_zero]; rfl⟩
  | [], _, n, _, j + 1, h, _ => ⟨_, by rw [List.take_nil]; rfl⟩
  | p :: ps, [], _, _, j + 1, ⟨_, _, _, h, _⟩, _ => by cases h
  | p :: ps, (raw, m) :: l, n, r, j + 1, ⟨i, raw', raws', h, h1, h2, h3, h4⟩, hw => by
    rw [List.map_cons, List.cons.injEq] at h
    obtain ⟨rfl, rfl⟩ := h
    obtain ⟨rest, ih⟩ := parts_stream (K := K) (k := k) (n := n + 1) j h4
      (fun i x hi hx => hw (i + 1) x (by omega) (by simpa using hx))
    have := hw 0 _ (by omega) rfl
    unfold Spec.Complete at this
    refine ⟨rest, _, _, _, h2, h3, ?_, ih⟩
    rw [Spec.parts, List.take_of_length_le (by rw [sealed_len h2]; exact this)]

/-- whoever delivers `j + 1` packets has found the MAC of the `j`-th -/
theorem delivered_mac {K : Crypto} : ∀ {N : Nat} {j : Nat} {c : ChaCha} {buf : Bytes} {s : IoSt}, 4 ≤ buf.length →
    j < (delivered K N c buf s).length →
    ∃ pre cov post, s.inp = pre ++ cov ++ Spec.mac K (Spec.keysOf c) (c.counter.toNat + j) cov ++ post := by
  intro N
  induction N with
  | zero => intro j c buf s _ h; exact absurd h (by simp [delivered])
  | succ N ih =>
    intro j c buf s hb h
    rw [delivered] at h
    cases hr : In.recv K c buf s with
    | mk r s' =>
    rw [hr] at h
    cases r with
    | err e => simp at h
    | panic => simp at h
    | ok x =>
      obtain ⟨q, c', buf'⟩ := x
      simp only [List.length_cons] at h
      obtain ⟨l, body, padding, g1, g2, g3, g4, g5, g6, g7, g8, g9, g10, g11, g12⟩ :=
        C23_delivered K c c' buf q buf' s s' hb hr
      cases j with
      | zero => exact ⟨[], l ++ body, s'.inp, by rw [g2]; simp⟩
      | succ j =>
        obtain ⟨pre, cov, post, e⟩ := ih (j := j) (by omega) (by omega : j < (delivered K N c' buf' s').length)
        rw [g8, g9, Nat.add_assoc, Nat.add_comm 1 j] at e
        exact ⟨l ++ body ++ Spec.mac K (Spec.keysOf c) c.counter.toNat (l ++ body) ++ pre, cov, post, by
          rw [g2, e]; simp only [List.append_assoc]⟩

theorem delivered_more {K : Crypto} : ∀ {N M : Nat} {c : ChaCha} {buf : Bytes} {s : IoSt}, N ≤ M →
    delivered K N c buf s <+: delivered K M c buf s := by
  intro N
  induction N with
  | zero => exact fun _ => List.nil_prefix
  | succ N ih =>
    intro M c buf s h
    obtain ⟨M, rfl⟩ : ∃ M', M = M' + 1 := ⟨M - 1, by omega⟩
    rw [delivered, delivered]
    split
    · rw [List.prefix_cons_inj]; exact ih (by omega)
    · exact List.nil_prefix

/-- a payload with its padding and its packet -/
theorem padded_triples : ∀ {ps : List Bytes} {r : Tape} {raws : List Bytes}, Spec.LeastPadded r ps raws →
    ∃ qs : List (Bytes × Bytes × Bytes), (∀ x ∈ qs, Spec.PacketOf .b8 false x.1 x.2.1 x.2.2) ∧
      qs.map (·.1) = ps ∧ qs.map (·.2.2) = raws
  | [], _, _, h => ⟨[], by simp, rfl, h.symm⟩
  | p :: ps, r, _, ⟨j, raw, raws', rfl, _, h2, _, h⟩ => by
    obtain ⟨qs, e1, e2, e3⟩ := padded_triples h
    refine ⟨(p, r.bytes j, raw) :: qs, ?_, by simp [e2], by simp [e3]⟩
    intro x hx
    rcases List.mem_cons.mp hx with rfl | hx
    · exact h2
    · exact e1 x hx

/-- C116: after the handshake the server has written, for each payload that it has sent, a packet or the beginning of
one, in this order: less than a packet only if a write was dropped, or for the last payload of a connection that has
ended. -/
theorem C116_written (cfg : Config) (hid : Spec.Fits cfg.ident) (ops : List Op) {i : Nat} {c : Conn}
    {s s1 : IoSt} {as : List Client.Step} {cl : HostClient} {t : List Event}
    (hc : (run cfg ops).conns[i]? = some c)
    (ho : Spec.own i ops = some (s, as)) (ht : c.io.log = s.log ++ t)
    (hne : t ≠ []) (hh : Host.handleNewClient cfg.K cfg.ident s = (ok cl, s1)) :
    3 + (Spec.sentPayloads t).length < 2 ^ 64 ∧
    ∃ l : List (Bytes × Nat), Spec.LeastPadded s1.rng (Spec.sentPayloads t) (l.map (·.1)) ∧
      c.io.out = s1.out ++ Spec.parts cfg.K (Spec.keysOf cl.sendCipher) 3 l ∧
      ∀ j x, l[j]? = some x → ¬ Spec.Complete x → Spec.WriteCut as ∨ c.phase = .ended ∧ j + 1 = l.length := by
  obtain ⟨s', as', h1, h⟩ := whole_flow cfg hid ops hc
  rw [ho] at h1
  cases h1
  rcases h with ⟨-, h⟩ | ⟨-, r, h2, h3⟩ | ⟨cl', s1', t', w, u, v, r', g1, g2, g3, g4, g5, g6, g7⟩
  · rw [h] at ht
    exact absurd (List.append_cancel_left ((List.append_nil _).trans ht)).symm hne
  · rw [hh] at h2
    cases h2
    exact absurd rfl (h3 cl)
  · rw [hh] at g1
    cases g1
    rw [ht] at g2
    cases List.append_cancel_left g2
    obtain ⟨l, i1, rfl, i3, i4⟩ := written_parts g5
    exact ⟨by omega, l, i1, g3, i3⟩

/-- what a client gets from packets of which only a part was written -/
theorem parts_read {K : Crypto} {key : Spec.Keys} {r : Tape} {ps : List Bytes} {l : List (Bytes × Nat)}
    (hl : Spec.LeastPadded r ps (l.map (·.1))) (i4 : 3 + ps.length < 2 ^ 64) {peer : ChaCha} {buf : Bytes} {sp : IoSt}
    (k1 : Spec.keysOf peer = key) (k2 : peer.counter = 3) (k3 : 35000 ≤ buf.length)
    (k4 : Spec.parts K key 3 l = sp.inp) :
    (∀ j N, (∀ k x, k < j → l[k]? = some x → Spec.Complete x) → j ≤ N →
      ps.take j <+: delivered K N peer buf sp) ∧
    (Spec.Genuine K key 3 l →
      (∀ N, delivered K N peer buf sp <+: ps) ∧
      ∀ j x N, l[j]? = some x → ¬ Spec.Complete x → (∀ k y, k < j → l[k]? = some y → Spec.Complete y) → j ≤ N →
        delivered K N peer buf sp = ps.take j) := by
  have k5 : peer.counter.toNat = 3 := by rw [k2]; rfl
  have lower : ∀ j N, (∀ k x, k < j → l[k]? = some x → Spec.Complete x) → j ≤ N →
      ps.take j <+: delivered K N peer buf sp := by
    intro j N hj hN
    obtain ⟨rest, hs⟩ := parts_stream (K := K) (k := key) (n := 3) j hl hj
    rw [k4, ← k1, ← k5] at hs
    have hq : (ps.take j).length ≤ ps.length := by
      rw [List.length_take]; omega
    have hq' : (ps.take j).length ≤ j := by rw [List.length_take]; omega
    have := stream_delivered hs k3 (by rw [k5]; omega)
    rw [← this]
    exact delivered_more (by omega)
  refine ⟨lower, fun hg => ?_⟩
  have upper : ∀ N, delivered K N peer buf sp <+: ps := by
    intro N
    obtain ⟨qs, e1, e2, e3⟩ := padded_triples hl
    rw [← e2]
    refine C25_prefix K peer buf sp N qs (by omega) e1 ?_
    rw [k1, k5, e3, ← k4]
    intro pre cov post n hn he
    rw [List.length_map] at hn
    obtain ⟨x, m1, -, -, m2⟩ := hg pre cov post n hn he
    exact ⟨x.1, by rw [List.getElem?_map, m1]; rfl, m2⟩
  refine ⟨upper, fun j x N hx hw hj hN => ?_⟩
  have hlen : (delivered K N peer buf sp).length ≤ j := by
    refine Nat.le_of_not_lt fun hlt => ?_
    obtain ⟨pre, cov, post, e⟩ := delivered_mac (by omega) hlt
    rw [k1, k5, ← k4] at e
    have hjl : j < l.length := (List.getElem?_eq_some_iff.mp hx).1
    obtain ⟨y, m1, m2, -⟩ := hg pre cov post j (by omega) e
    rw [hx] at m1
    cases m1
    exact hw m2
  obtain ⟨z, hz⟩ := lower j N hj hN
  have hjl : j < l.length := (List.getElem?_eq_some_iff.mp hx).1
  have := padded_length hl
  rw [List.length_map] at this
  have hz' := congrArg List.length hz
  rw [List.length_append, List.length_take, Nat.min_eq_left (by omega)] at hz'
  have : z = [] := List.eq_nil_of_length_eq_zero (by omega)
  rw [← hz, this, List.append_nil]

/-- C116: what a client can read, whichever writes were dropped: a client with the keys and a buffer of 35000 bytes
reads all payloads up to the first packet of which a part is missing. If nothing in what was written is forged, then it
never reads anything else: neither what was sent later nor anything that was not sent. -/
theorem C116_client_reads (cfg : Config) (hid : Spec.Fits cfg.ident) (ops : List Op) {i : Nat} {c : Conn}
    {s s1 : IoSt} {as : List Client.Step} {cl : HostClient} {t : List Event}
    (hc : (run cfg ops).conns[i]? = some c)
    (ho : Spec.own i ops = some (s, as)) (ht : c.io.log = s.log ++ t)
    (hne : t ≠ []) (hh : Host.handleNewClient cfg.K cfg.ident s = (ok cl, s1)) (l : List (Bytes × Nat))
    (hl : Spec.LeastPadded s1.rng (Spec.sentPayloads t) (l.map (·.1)))
    (hout : c.io.out = s1.out ++ Spec.parts cfg.K (Spec.keysOf cl.sendCipher) 3 l)
    (peer : ChaCha) (buf : Bytes) (sp : IoSt) (k1 : Spec.keysOf peer = Spec.keysOf cl.sendCipher)
    (k2 : peer.counter = 3) (k3 : 35000 ≤ buf.length) (k4 : c.io.out = s1.out ++ sp.inp) :
    (∀ j N, (∀ k x, k < j → l[k]? = some x → Spec.Complete x) → j ≤ N →
      (Spec.sentPayloads t).take j <+: delivered cfg.K N peer buf sp) ∧
    (Spec.Genuine cfg.K (Spec.keysOf cl.sendCipher) 3 l →
      (∀ N, delivered cfg.K N peer buf sp <+: Spec.sentPayloads t) ∧
      ∀ j x N, l[j]? = some x → ¬ Spec.Complete x → (∀ k y, k < j → l[k]? = some y → Spec.Complete y) → j ≤ N →
        delivered cfg.K N peer buf sp = (Spec.sentPayloads t).take j) := by
  rw [hout] at k4
  exact parts_read hl (C116_written cfg hid ops hc ho ht hne hh).1 k1 k2 k3 (List.append_cancel_left k4)

theorem parts_append (K : Crypto) (k : Spec.Keys) : ∀ (l l' : List (Bytes × Nat)) (n : Nat),
    Spec.parts K k n (l ++ l') = Spec.parts K k n l ++ Spec.parts K k (n + l.length) l'
  | [], l', n => rfl
  | (raw, m) :: l, l', n => by
    rw [List.cons_append, Spec.parts, Spec.parts, parts_append K k l l' (n + 1), List.append_assoc, List.length_cons,
      Nat.add_assoc, Nat.add_comm 1]

/-- the packets of what is sent later -/
theorem written_padded {K : Crypto} {k : Spec.Keys} {D F : Prop} {n : Nat} {r r' : Tape} {ps : List Bytes} {w : Bytes}
    (h : Spec.Written K k D F n r ps w r') {ps' : List Bytes} : ∀ {raws raws' : List Bytes},
    Spec.LeastPadded r ps raws → Spec.LeastPadded r' ps' raws' → Spec.LeastPadded r (ps ++ ps') (raws ++ raws') := by
  induction h with
  | nil =>
    intro raws raws' h1 h2
    rw [show raws = [] from h1]
    exact h2
  | cons h1 _ _ _ _ _ ih =>
    rintro _ raws' ⟨j, raw, raws, rfl, q1, q2, q3, q4⟩ h2
    cases leastPad_unique h1 q1
    exact ⟨_, raw, _, rfl, q1, q2, q3, ih q4 h2⟩

/-- C116: once a packet was written only in part, the client never reads anything again, whatever is sent to it later
and whatever all the clients do from then on, if nothing in what is written is forged: it has read what was sent before
this packet, and that is all. -/
theorem C116_mute (cfg : Config) (hid : Spec.Fits cfg.ident) (ops post : List Op) {i : Nat} {c : Conn}
    {s s1 : IoSt} {as : List Client.Step} {cl : HostClient} {t : List Event}
    (hc : (run cfg ops).conns[i]? = some c)
    (ho : Spec.own i ops = some (s, as)) (ht : c.io.log = s.log ++ t)
    (hne : t ≠ []) (hh : Host.handleNewClient cfg.K cfg.ident s = (ok cl, s1)) (l : List (Bytes × Nat))
    (hl : Spec.LeastPadded s1.rng (Spec.sentPayloads t) (l.map (·.1)))
    (hout : c.io.out = s1.out ++ Spec.parts cfg.K (Spec.keysOf cl.sendCipher) 3 l)
    {j : Nat} {x : Bytes × Nat} (hx : l[j]? = some x) (hpart : ¬ Spec.Complete x)
    (hbefore : ∀ k y, k < j → l[k]? = some y → Spec.Complete y) :
    ∃ c' t' l', (run cfg (ops ++ post)).conns[i]? = some c' ∧ c'.io.log = c.io.log ++ t' ∧
      Spec.LeastPadded s1.rng (Spec.sentPayloads (t ++ t')) ((l ++ l').map (·.1)) ∧
      c'.io.out = s1.out ++ Spec.parts cfg.K (Spec.keysOf cl.sendCipher) 3 (l ++ l') ∧
      (Spec.Genuine cfg.K (Spec.keysOf cl.sendCipher) 3 (l ++ l') →
        ∀ (peer : ChaCha) (buf : Bytes) (sp : IoSt), Spec.keysOf peer = Spec.keysOf cl.sendCipher →
          peer.counter = 3 → 35000 ≤ buf.length → c'.io.out = s1.out ++ sp.inp → ∀ N, j ≤ N →
          delivered cfg.K N peer buf sp = (Spec.sentPayloads t).take j) := by
  have hjl : j < l.length := (List.getElem?_eq_some_iff.mp hx).1
  have hlen := padded_length hl
  rw [List.length_map] at hlen
  have hb := (C116_written cfg hid ops hc ho ht hne hh).1
  -- what follows from the packets
  have reads : ∀ (c' : Conn) (t' : List Event) (l' : List (Bytes × Nat)),
      3 + (Spec.sentPayloads (t ++ t')).length < 2 ^ 64 →
      Spec.LeastPadded s1.rng (Spec.sentPayloads (t ++ t')) ((l ++ l').map (·.1)) →
      c'.io.out = s1.out ++ Spec.parts cfg.K (Spec.keysOf cl.sendCipher) 3 (l ++ l') →
      (Spec.Genuine cfg.K (Spec.keysOf cl.sendCipher) 3 (l ++ l') →
        ∀ (peer : ChaCha) (buf : Bytes) (sp : IoSt), Spec.keysOf peer = Spec.keysOf cl.sendCipher →
          peer.counter = 3 → 35000 ≤ buf.length → c'.io.out = s1.out ++ sp.inp → ∀ N, j ≤ N →
          delivered cfg.K N peer buf sp = (Spec.sentPayloads t).take j) := by
    intro c' t' l' h1 h2 h3 hg peer buf sp k1 k2 k3 k4 N hN
    rw [h3] at k4
    rw [((parts_read h2 h1 k1 k2 k3 (List.append_cancel_left k4)).2 hg).2 j x N
      (by rw [List.getElem?_append_left hjl]; exact hx) hpart
      (fun k y hk hy => hbefore k y hk (by rw [List.getElem?_append_left (by omega)] at hy; exact hy)) hN]
    rw [show Spec.sentPayloads (t ++ t') = Spec.sentPayloads t ++ Spec.sentPayloads t' by simp [Spec.sentPayloads]]
    exact List.take_append_of_le_length (by omega)
  have still : ∀ c', (run cfg (ops ++ post)).conns[i]? = some c' → c' = c → _ := fun c' h1 h2 =>
    (⟨c', [], [], h1, by rw [h2]; simp, by simpa using hl, by rw [h2]; simpa using hout,
      reads c' [] [] (by simpa using hb) (by simpa using hl) (by rw [h2]; simpa using hout)⟩ :
    ∃ c' t' l', (run cfg (ops ++ post)).conns[i]? = some c' ∧ c'.io.log = c.io.log ++ t' ∧
      Spec.LeastPadded s1.rng (Spec.sentPayloads (t ++ t')) ((l ++ l').map (·.1)) ∧
      c'.io.out = s1.out ++ Spec.parts cfg.K (Spec.keysOf cl.sendCipher) 3 (l ++ l') ∧
      (Spec.Genuine cfg.K (Spec.keysOf cl.sendCipher) 3 (l ++ l') →
        ∀ (peer : ChaCha) (buf : Bytes) (sp : IoSt), Spec.keysOf peer = Spec.keysOf cl.sendCipher →
          peer.counter = 3 → 35000 ≤ buf.length → c'.io.out = s1.out ++ sp.inp → ∀ N, j ≤ N →
          delivered cfg.K N peer buf sp = (Spec.sentPayloads t).take j))
  obtain ⟨s', as0, more0, h1, h2, -⟩ := conn_of_run hc
  rw [ho] at h1
  cases h1
  subst h2
  obtain ⟨more, hrun⟩ := run_more hc post
  have hf := flow_inv hid s as0
  have hmore := fun e => carries_more hid s as0 more (e := e)
  have hend := alone_after (cfg := cfg) s as0 more
  generalize Spec.alone cfg s (as0 ++ more) = c' at hrun hmore hend
  generalize Spec.alone cfg s as0 = c at hf hmore hend ht hout still
  have main : ∀ e, endsOf c.phase = some e → Since cfg s as0 c.io (some e) →
      ∃ c' t' l', (run cfg (ops ++ post)).conns[i]? = some c' ∧ c'.io.log = c.io.log ++ t' ∧
      Spec.LeastPadded s1.rng (Spec.sentPayloads (t ++ t')) ((l ++ l').map (·.1)) ∧
      c'.io.out = s1.out ++ Spec.parts cfg.K (Spec.keysOf cl.sendCipher) 3 (l ++ l') ∧
      (Spec.Genuine cfg.K (Spec.keysOf cl.sendCipher) 3 (l ++ l') →
        ∀ (peer : ChaCha) (buf : Bytes) (sp : IoSt), Spec.keysOf peer = Spec.keysOf cl.sendCipher →
          peer.counter = 3 → 35000 ≤ buf.length → c'.io.out = s1.out ++ sp.inp → ∀ N, j ≤ N →
          delivered cfg.K N peer buf sp = (Spec.sentPayloads t).take j) := by
    rintro e he ⟨cl', s1', g1, t0, w, u, v, r', g2, g3, g4, g5, g6, g7⟩
    rw [hh] at g1
    cases g1
    obtain ⟨k1, k2, -, -, k3, -⟩ := handshake_session hid hh
    obtain ⟨-, m0, m1, m2, m3, -, -⟩ := g7 e rfl
    rw [k3, ht] at g2
    cases List.append_cancel_left g2
    obtain ⟨⟨t', w', u', v', r'', n1, n2, -, n4, -, -⟩, -⟩ := hmore e he m1
    rw [m0] at n4
    obtain ⟨l', i1, rfl, -, i4⟩ := written_parts n4
    have hsent : Spec.sentPayloads (t ++ t') = Spec.sentPayloads t ++ Spec.sentPayloads t' := by simp [Spec.sentPayloads]
    have hcount : e.send.counter.toNat = 3 + (Spec.sentPayloads t).length := by
      rw [m3]
      simp only [firstEnds, k2]
      rfl
    have p1 : Spec.LeastPadded s1.rng (Spec.sentPayloads (t ++ t')) ((l ++ l').map (·.1)) := by
      rw [hsent, List.map_append]
      exact written_padded g5 hl i1
    have p2 : c'.io.out = s1.out ++ Spec.parts cfg.K (Spec.keysOf cl.sendCipher) 3 (l ++ l') := by
      rw [n2, hout, parts_append, hlen, m2, hcount, List.append_assoc]
      rfl
    refine ⟨c', t', l', hrun, n1, p1, p2, reads c' t' l' ?_ p1 p2⟩
    rw [hsent, List.length_append]
    rw [hcount] at i4
    omega
  have hlog : c.io.log = s.log → False := fun h => hne (by simpa [h] using ht)
  cases hp : c.phase with
  | new =>
    rw [FlowInv, hp] at hf
    exact absurd (by rw [hf]) hlog
  | service cl' =>
    rw [FlowInv, hp] at hf
    exact absurd ((handshake_session hid hf).2.2.2.2.1) hlog
  | auth sid st =>
    rw [FlowInv, hp] at hf
    exact main _ (by rw [hp]; rfl) hf
  | session user st =>
    rw [FlowInv, hp] at hf
    exact main _ (by rw [hp]; rfl) hf
  | ended => exact still c' hrun (hend hp)

/-! ### example -/

/-- the packets for these payloads -/
def padUp : Tape → List Bytes → List Bytes
  | _, [] => []
  | r, p :: ps =>
    let k := 4 + (8 - (p.length + 5) % 8) % 8
    (Spec.u32 (1 + p.length + k) ++ (UInt8.ofNat k :: (p ++ r.bytes k))) :: padUp (r.skip k) ps

theorem padUp_padded : ∀ {ps : List Bytes} {r : Tape}, (∀ p ∈ ps, p.length ≤ 30000) → Spec.LeastPadded r ps (padUp r ps)
  | [], _, _ => rfl
  | p :: ps, r, h => by
    have hp := h p (List.mem_cons_self ..)
    have hb : ∀ k, (r.bytes k).length = k := fun k => by simp [Tape.bytes]
    refine ⟨4 + (8 - (p.length + 5) % 8) % 8, _, _, rfl, ⟨by omega, ?_, ?_⟩, ⟨?_, ?_, ?_, ?_, ?_⟩, ?_,
      padUp_padded fun q hq => h q (List.mem_cons_of_mem _ hq)⟩
    · show (0 + (1 + p.length + _)) % 8 = 0; omega
    · intro j h1 h2
      change (0 + (1 + p.length + j)) % 8 = 0 at h2
      omega
    · rw [hb]
    all_goals first
      | (rw [hb]; omega)
      | (rw [hb]; show (0 + (1 + p.length + _)) % 8 = 0; omega)
      | (simp [hb]; omega)

/-- the same client; the write of the reply to its channel open is dropped after 10 bytes -/
def cutSteps : List Client.Step :=
  List.replicate 4 .message ++ [.event (.write 10) (.exit 9 none), .message]

def cutOps : List Op := .accept (clientState wholePayloads []) :: cutSteps.map (.poll 0)

/-- the replies -/
def cutSent : List Bytes := [Spec.acceptReply, Spec.failureReply, Spec.successReply,
  Spec.encode (Spec.confirm 0 demoOpen), Spec.encode (Spec.success 5)]

/-- what is written of them -/
def cutList : List (Bytes × Nat) := (padUp (fun _ => 0) cutSent).zip [100, 100, 100, 10, 100]

def cutOutput : Bytes := Spec.parts .flat flatKeys 3 cutList

/-- where the tags are, and how much is before each that is covered by it -/
def cutTags : List (Nat × Nat) := [(28, 28), (80, 36), (108, 12), (154, 20)]

theorem cut_marks : ∀ q : Fin 170, (cutOutput.drop q).take 4 = b! "poly" →
    ∃ x ∈ cutTags, x.1 = q.val ∧ (cutOutput.drop (q + 4)).take 4 = Spec.u32 x.2 := by
  decide +kernel

theorem cut_places : ∀ x ∈ cutTags, ∀ i : Fin 6,
    Spec.mac .flat flatKeys (3 + i) ((cutOutput.drop (x.1 - x.2)).take x.2) = (cutOutput.drop x.1).take 16 →
    cutOutput.take (x.1 - x.2) = Spec.parts .flat flatKeys 3 (cutList.take i) ∧
    (cutList[i.val]?).any (fun y => decide (y.1.length + 16 ≤ y.2) && (cutOutput.drop (x.1 - x.2)).take x.2 ==
      Spec.sealLength .flat flatKeys (3 + i) (y.1.take 4) ++
        Spec.sealBody .flat flatKeys (3 + i) (y.1.drop 4)) = true := by
  decide +kernel

theorem cut_genuine : Spec.Genuine .flat flatKeys 3 cutList := by
  intro pre cov post i hi h
  change cutOutput = _ at h
  have hl := congrArg List.length h
  rw [show cutOutput.length = 170 by decide +kernel] at hl
  simp only [List.length_append, mac_length] at hl
  have hcov : cov = (cutOutput.drop pre.length).take cov.length := by rw [h]; simp
  have hpre : pre = cutOutput.take pre.length := by rw [h]; simp
  have htag : Spec.mac .flat flatKeys (3 + i) cov = (cutOutput.drop (pre.length + cov.length)).take 16 := by
    rw [h, List.append_assoc, ← List.length_append, List.drop_left, List.take_append_of_le_length
      (by simp), List.take_of_length_le (by simp)]
  have hmac : Spec.mac .flat flatKeys (3 + i) cov = b! "poly" ++ (Spec.u32 cov.length ++
      Spec.u64 ((Spec.macKey .flat flatKeys (3 + i) ++ cov).foldl
        (fun a b => (a * 257 + b.toNat + 1) % 2 ^ 64) 0)) := by
    show markedTag _ _ = _
    rw [markedTag, List.append_assoc]
  obtain ⟨x, hx, h1, h2⟩ := cut_marks ⟨pre.length + cov.length, by omega⟩ (by
    have := congrArg (List.take 4) (htag.symm.trans hmac)
    rw [List.take_take] at this
    exact this)
  simp only at h1 h2
  have h3 : Spec.u32 cov.length = Spec.u32 x.2 := by
    rw [← h2]
    have := congrArg (fun l => (l.drop 4).take 4) (htag.symm.trans hmac)
    simp only [List.drop_take, List.take_take, List.drop_drop] at this
    exact this.symm
  have hx2 : ∀ x ∈ cutTags, x.2 < 100 := by decide
  have h4 := u32_inj (by omega) (by have := hx2 x hx; omega) h3
  have hn : cutList.length = 5 := by decide +kernel
  have h5 := cut_places x hx ⟨i, by omega⟩
  rw [show x.1 - x.2 = pre.length by omega, ← h4, h1, ← hcov] at h5
  replace h5 := h5 htag
  simp only at h5
  rw [← hpre] at h5
  cases h6 : cutList[i]? with
  | none => rw [h6] at h5; cases h5.2
  | some y =>
    rw [h6] at h5
    simp only [Option.any_some, Bool.and_eq_true, decide_eq_true_eq, beq_iff_eq] at h5
    exact ⟨y, rfl, h5.2.1, h5.1, h5.2.2⟩

/-- what the handshake has written, the keys of the server for sending and the packets with the padding that follows -/
def cutHandshake : Option (Bytes × Spec.Keys × List Bytes) :=
  match Host.handleNewClient .flat (b! "SSH-2.0-nora") (clientState wholePayloads []) with
  | (ok c, s1) => some (s1.out, Spec.keysOf c.sendCipher, padUp s1.rng cutSent)
  | _ => none

/-- the premises of C116 hold for this client: the write of the fourth reply was dropped after 10 bytes and the
connection went on -/
theorem cut_run : ∃ (c : Conn) (cl : HostClient) (s1 : IoSt), (run wholeConfig cutOps).conns[0]? = some c ∧
    Spec.own 0 cutOps = some (clientState wholePayloads [], cutSteps) ∧
    Spec.sentPayloads c.io.log = cutSent ∧
    Host.handleNewClient wholeConfig.K wholeConfig.ident (clientState wholePayloads []) = (ok cl, s1) ∧
    Spec.LeastPadded s1.rng (Spec.sentPayloads c.io.log) (cutList.map (·.1)) ∧
    Spec.keysOf cl.sendCipher = flatKeys ∧ c.io.out = s1.out ++ cutOutput := by
  obtain ⟨cl, s1, g1, -, -, -⟩ := flat_session wholePayloads []
  have hr : (run wholeConfig cutOps).conns[0]?.map (fun c => (Spec.sentPayloads c.io.log, c.io.out)) =
      cutHandshake.map fun x => (cutSent, x.1 ++ cutOutput) := by decide +kernel
  have hk : cutHandshake.map (·.2) = some (flatKeys, cutList.map (·.1)) := by decide +kernel
  unfold cutHandshake at hr hk
  rw [g1] at hr hk
  simp only [Option.map_some, Option.some.injEq, Prod.mk.injEq] at hr hk
  obtain ⟨hk, hmap⟩ := hk
  cases hc : (run wholeConfig cutOps).conns[0]? with
  | none => rw [hc] at hr; cases hr
  | some c =>
    rw [hc] at hr
    simp only [Option.map_some, Option.some.injEq, Prod.mk.injEq] at hr
    have hlen : ∀ p ∈ cutSent, p.length ≤ 30000 := by decide +kernel
    exact ⟨c, cl, s1, rfl, rfl, hr.1, g1, by rw [hr.1, ← hmap]; exact padUp_padded hlen, hk, hr.2⟩

theorem cut_before : ∀ k y, k < 3 → cutList[k]? = some y → Spec.Complete y := by
  have hw : ∀ k : Fin 3, (cutList[k.val]?).all (fun y => decide (y.1.length + 16 ≤ y.2)) = true := by decide +kernel
  intro k y hk hy
  have := hw ⟨k, hk⟩
  simp only [hy, Option.all_some, decide_eq_true_eq] at this
  exact this

theorem cut_at : ∃ x, cutList[3]? = some x ∧ ¬ Spec.Complete x := ⟨_, rfl, by unfold Spec.Complete; decide +kernel⟩

-- The client reads three replies, and never the fifth, though it was written as a whole.
example : ∃ (c : Conn) (cl : HostClient) (s1 : IoSt) (w : Bytes),
    (run wholeConfig cutOps).conns[0]? = some c ∧ Spec.sentPayloads c.io.log = cutSent ∧
    Host.handleNewClient .flat (b! "SSH-2.0-nora") (clientState wholePayloads []) = (ok cl, s1) ∧
    c.io.out = s1.out ++ w ∧ ∀ (buf : Bytes) (N : Nat), 35000 ≤ buf.length → 3 ≤ N →
      delivered .flat N { cl.sendCipher with counter := 3 } buf
        { inp := w, out := [], wcap := none, rng := fun _ => 0, log := [] } =
        [Spec.acceptReply, Spec.failureReply, Spec.successReply] := by
  obtain ⟨c, cl, s1, h1, h2, h3, h4, h5, h6, h7⟩ := cut_run
  obtain ⟨x, hx, hn⟩ := cut_at
  refine ⟨c, cl, s1, cutOutput, h1, h3, h4, h7, fun buf N hb hN => ?_⟩
  have := C116_client_reads wholeConfig (by decide) cutOps (t := c.io.log) h1 h2 rfl
    (by intro h; rw [h] at h3; exact absurd h3 (by decide +kernel)) h4 cutList h5 (by rw [h6]; exact h7)
    { cl.sendCipher with counter := 3 } buf ⟨cutOutput, [], none, fun _ => 0, []⟩ rfl rfl hb h7
  rw [h3] at this
  exact ((this.2 (by rw [h6]; exact cut_genuine)).2 3 x N hx hn cut_before hN).trans rfl

-- The same after anything else has happened, unless something is forged.
example (post : List Op) : ∃ (c' : Conn) (cl : HostClient) (s1 : IoSt) (l' : List (Bytes × Nat)),
    (run wholeConfig (cutOps ++ post)).conns[0]? = some c' ∧
    Host.handleNewClient .flat (b! "SSH-2.0-nora") (clientState wholePayloads []) = (ok cl, s1) ∧
    c'.io.out = s1.out ++ Spec.parts .flat flatKeys 3 (cutList ++ l') ∧
    (Spec.Genuine .flat flatKeys 3 (cutList ++ l') → ∀ (peer : ChaCha) (buf : Bytes) (sp : IoSt),
      Spec.keysOf peer = flatKeys → peer.counter = 3 → 35000 ≤ buf.length → c'.io.out = s1.out ++ sp.inp →
      ∀ N, 3 ≤ N → delivered .flat N peer buf sp = [Spec.acceptReply, Spec.failureReply, Spec.successReply]) := by
  obtain ⟨c, cl, s1, h1, h2, h3, h4, h5, h6, h7⟩ := cut_run
  obtain ⟨x, hx, hn⟩ := cut_at
  obtain ⟨c', t', l', e1, -, -, e2, e3⟩ := C116_mute wholeConfig (by decide) cutOps post (t := c.io.log) h1 h2 rfl
    (by intro h; rw [h] at h3; exact absurd h3 (by decide +kernel)) h4 cutList h5 (by rw [h6]; exact h7) hx hn cut_before
  rw [h6] at e2 e3
  rw [h3] at e3
  exact ⟨c', cl, s1, l', e1, h4, e2, e3⟩

end Nora
