import Verif.Props.Whole
/-
Both ends of a connection: what the server receives is what the holder of the keys has sent (C70), and the
client can read what the server has sent (C71).
-/
namespace Nora
open R Server

/-! ### C70 integrity of a connection -/

/-- a packet that was sealed and one that is read from the same bytes have the same payload -/
theorem framed_sent {p p' padding raw raw' : Bytes} {K : Crypto} {k : Spec.Keys} {n : Nat}
    (h : Spec.Framed .b8 false p raw) (h' : Spec.PacketOf .b8 false p' padding raw')
    (he : Spec.sealLength K k n (raw.take 4) ++ Spec.sealBody K k n (raw.drop 4) =
      Spec.sealLength K k n (raw'.take 4) ++ Spec.sealBody K k n (raw'.drop 4)) : p = p' := by
  obtain ⟨pad, h1, h2, -⟩ := h
  have e1 := h'.bytes
  have e2 := h'.maxPad
  have hl : raw.take 4 = Spec.u32 (1 + p.length + pad.length) := by rw [h1]; rfl
  have hl' : raw'.take 4 = Spec.u32 (1 + p'.length + padding.length) := by rw [e1]; rfl
  have hd : raw.drop 4 = UInt8.ofNat pad.length :: (p ++ pad) := by rw [h1]; rfl
  have hd' : raw'.drop 4 = UInt8.ofNat padding.length :: (p' ++ padding) := by rw [e1]; rfl
  rw [hl, hl', hd, hd'] at he
  have he := (List.append_inj he (by simp)).2
  have he := congrArg (Spec.sealBody K k n) he
  rw [sealBody_invol, sealBody_invol, List.cons.injEq] at he
  have : pad.length = padding.length := by
    have := congrArg UInt8.toNat he.1
    rw [UInt8.ofNat_toNat_mod, UInt8.ofNat_toNat_mod] at this
    omega
  exact (List.append_inj' he.2 this).1

/-- what is taken from an input without forged packets was sent -/
theorem taken_sent {K : Crypto} {k : Spec.Keys} {D : Prop} {n : Nat} {ps : List Bytes} {u : Bytes}
    (h : Spec.Taken K k D n ps u) : ∀ (v : Bytes) (qs : List (Bytes × Bytes × Bytes)),
    (∀ x ∈ qs, Spec.PacketOf .b8 false x.1 x.2.1 x.2.2) →
    NoForgery K k n (qs.map (·.2.2)) (u ++ v) → ps <+: qs.map (·.1) := by
  induction h with
  | nil => exact fun _ _ _ _ => List.nil_prefix
  | @cons n p gap raw ps u h1 h2 h3 h4 _ ih =>
    intro v qs hqs hnf
    obtain ⟨raw', hraw, hcov⟩ := hnf gap
      (Spec.sealLength K k n (raw.take 4) ++ Spec.sealBody K k n (raw.drop 4)) (u ++ v) 0
      (Nat.zero_le _) (by simp [Spec.sealed])
    cases qs with
    | nil => simp at hraw
    | cons x qs =>
      simp only [List.map_cons, List.getElem?_cons_zero, Option.some.injEq] at hraw
      subst hraw
      have := framed_sent h2 (hqs x (List.mem_cons_self ..)) hcov
      subst this
      rw [List.map_cons, List.prefix_cons_inj]
      refine ih v qs (fun y hy => hqs y (List.mem_cons_of_mem _ hy)) ?_
      intro pre cov post i hi hinp
      rw [show n + 1 + i = n + (i + 1) by omega] at hinp ⊢
      obtain ⟨raw', r1, r2⟩ := hnf (gap ++ Spec.sealed K k n raw ++ pre) cov post (i + 1)
        (by simp at hi ⊢; omega) (by rw [List.append_assoc _ u, hinp]; simp)
      exact ⟨raw', by simpa using r1, r2⟩

/-- C70: whatever the network delivers, and whatever reads were dropped: as long as no packet is forged in
the input after the handshake, the payloads that the server has received from a client are, in order,
without gaps and without repetition, the first of those that the holder of the keys has sent. -/
theorem C70_integrity (cfg : Config) (hid : Spec.Fits cfg.ident) (ops : List Op) {i : Nat} {c : Conn}
    {s s1 : IoSt} {as : List Client.Step} {cl : HostClient} {t : List Event}
    (qs : List (Bytes × Bytes × Bytes)) (hc : (run cfg ops).conns[i]? = some c)
    (ho : Spec.own i ops = some (s, as)) (ht : c.io.log = s.log ++ t)
    (hh : Host.handleNewClient cfg.K cfg.ident s = (ok cl, s1))
    (hqs : ∀ x ∈ qs, Spec.PacketOf .b8 false x.1 x.2.1 x.2.2)
    (hnf : NoForgery cfg.K (Spec.keysOf cl.receiveCipher) 3 (qs.map (·.2.2)) s1.inp) :
    Spec.payloads t <+: qs.map (·.1) := by
  obtain ⟨s', as', t', h1, h2, h⟩ := C67_input cfg hid ops hc
  rw [ho] at h1
  cases h1
  rw [ht] at h2
  cases List.append_cancel_left h2
  rcases h with ⟨rfl, -⟩ | ⟨rfl, -⟩ | ⟨cl', s1', u, v, g1, g2, g3, -⟩
  · exact List.nil_prefix
  · exact List.nil_prefix
  · rw [hh] at g1
    cases g1
    rw [g2, List.append_assoc] at hnf
    exact taken_sent g3 _ qs hqs hnf

/-- C70 for processes: without forged packets a process is started only after, and because of, a request
for it that the holder of the keys has sent, and one for authentication that the holder has sent before. -/
theorem C70_process (cfg : Config) (hid : Spec.Fits cfg.ident) (ops : List Op) {i : Nat} {c : Conn}
    {s s1 : IoSt} {as : List Client.Step} {cl : HostClient} {t : List Event}
    (qs : List (Bytes × Bytes × Bytes)) (hc : (run cfg ops).conns[i]? = some c)
    (ho : Spec.own i ops = some (s, as)) (ht : c.io.log = s.log ++ t)
    (hh : Host.handleNewClient cfg.K cfg.ident s = (ok cl, s1))
    (hqs : ∀ x ∈ qs, Spec.PacketOf .b8 false x.1 x.2.1 x.2.2)
    (hnf : NoForgery cfg.K (Spec.keysOf cl.receiveCipher) 3 (qs.map (·.2.2)) s1.inp)
    {pre post : List Event} {n : Nat} {si so se : Bool}
    (he : t = pre ++ .proc (.started n si so se) :: post) :
    ∃ j k x y user service arg u req a ty, j < k ∧ qs[j]? = some x ∧ qs[k]? = some y ∧
      Spec.Attempt cl.sessionIdentifier x.1 user service arg ∧
      .auth user service arg (some u) ∈ pre ∧
      Spec.Legal (.channel (.request req)) y.1 ∧ Spec.Asks req a ∧ Spec.runs a = some ty ∧
      (∃ l, pre = l ++ [.received y.1, .proc (.spawn ty n)] ∧ (Spec.payloads l).length = k) := by
  have hpre := C70_integrity cfg hid ops qs hc ho ht hh hqs hnf
  obtain ⟨s', as', t', h1, h2, h⟩ := C64_process cfg hid ops hc
  rw [ho] at h1
  cases h1
  rw [ht] at h2
  cases List.append_cancel_left h2
  obtain ⟨cl', s1', before, p, user, service, arg, u, after, g1, g2, g3, g4, -, -, g5⟩ := h _ _ _ he
  rw [hh] at g1
  cases g1
  obtain ⟨l, q, req, a, ty, m1, m2, m3, m4, -⟩ := g5 n si so se rfl
  have hp : Spec.payloads t = Spec.payloads before ++ p :: (Spec.payloads l ++ q :: Spec.payloads post) := by
    rw [he, g2, m1]
    simp [Spec.payloads]
  rw [hp] at hpre
  obtain ⟨z, hz⟩ := hpre
  have at_ : ∀ (a b : List Bytes) (r : Bytes), qs.map (·.1) = a ++ r :: b →
      ∃ x, qs[a.length]? = some x ∧ x.1 = r := by
    intro a b r h
    have := congrArg (·[a.length]?) h
    simp only [List.getElem?_map, List.getElem?_append_right (Nat.le_refl _), Nat.sub_self,
      List.getElem?_cons_zero, Option.map_eq_some_iff] at this
    exact this
  obtain ⟨x, hx, rfl⟩ := at_ (Spec.payloads before) (Spec.payloads l ++ q :: Spec.payloads post ++ z) p
    (by rw [← hz]; simp)
  obtain ⟨y, hy, rfl⟩ := at_ (Spec.payloads before ++ x.1 :: Spec.payloads l) (Spec.payloads post ++ z) q
    (by rw [← hz]; simp)
  refine ⟨_, _, x, y, user, service, arg, u, req, a, ty, ?_, hx, hy, g3, by rw [g2]; simp, m2, m3, m4,
    before ++ [.received x.1, .auth user service arg (some u), .sent Spec.successReply] ++ l, ?_, ?_⟩
  · simp only [List.length_append, List.length_cons]
    omega
  · rw [g2, m1]; simp
  · simp [Spec.payloads]

/-! ### C71 the client can read what the server has sent -/

theorem written_stream {K : Crypto} {k : Spec.Keys} {D F : Prop} {n : Nat} {r r' : Tape}
    {ps : List Bytes} {w : Bytes} (hD : ¬ D) (h : Spec.Written K k D F n r ps w r') :
    ∃ w', Spec.Stream K k n ps (w ++ w') [] ∧ (¬ F → w' = []) ∧ n + ps.length ≤ max n (2 ^ 64 - 1) := by
  induction h with
  | nil => exact ⟨[], rfl, fun _ => rfl, by simp; omega⟩
  | @cons n r p j raw m ps w r' h1 h2 h3 h4 h5 h6 ih =>
    obtain ⟨w', i1, i2, i3⟩ := ih
    rw [List.length_cons]
    by_cases hm : m < (Spec.sealed K k n raw).length
    · obtain ⟨hF, rfl⟩ := (h5 hm).resolve_left hD
      rw [Spec.Written.nil_iff] at h6
      obtain ⟨rfl, -⟩ := h6
      refine ⟨(Spec.sealed K k n raw).drop m, ⟨_, raw, [], h2, h3, by simp, rfl⟩, fun h => absurd hF h, ?_⟩
      simp only [List.length_nil]
      omega
    · refine ⟨w', ⟨_, raw, _, h2, h3, ?_, i1⟩, i2, by omega⟩
      rw [List.take_of_length_le (by omega), List.append_assoc]

/-- a client with the keys and a buffer of 35000 bytes gets the payloads of a stream -/
theorem stream_delivered {K : Crypto} {ps : List Bytes} : ∀ {c : ChaCha} {buf rest : Bytes} {s : IoSt},
    Spec.Stream K (Spec.keysOf c) c.counter.toNat ps s.inp rest → 35000 ≤ buf.length →
    c.counter.toNat + ps.length < 2 ^ 64 →
    delivered K ps.length c buf s = ps := by
  induction ps with
  | nil => exact fun _ _ _ => rfl
  | cons p ps ih =>
    intro c buf rest s h hb hc
    rw [List.length_cons] at hc
    obtain ⟨padding, raw, w', h1, h2, h3, h4⟩ := h
    obtain ⟨c', buf', e1, e2, e3, e4⟩ := C22_recv_one K c buf p padding raw w' s h1 (by omega) (by omega) h3
    rw [List.length_cons, delivered, e4]
    simp only
    rw [ih (by rw [e1, e2]; exact h4) (by omega) (by omega)]

/-- if the stream is cut off, it gets nothing else -/
theorem cut_delivered {K : Crypto} (N : Nat) : ∀ {ps : List Bytes} {c : ChaCha} {buf w' : Bytes} {s : IoSt},
    Spec.Stream K (Spec.keysOf c) c.counter.toNat ps (s.inp ++ w') [] → 4 ≤ buf.length →
    delivered K N c buf s <+: ps := by
  induction N with
  | zero => exact fun _ _ => List.nil_prefix
  | succ N ih =>
    intro ps c buf w' s h hb
    rw [delivered]
    cases hr : In.recv K c buf s with
    | mk r s' =>
    cases r with
    | err e => exact List.nil_prefix
    | panic => exact List.nil_prefix
    | ok x =>
      obtain ⟨q, c', buf'⟩ := x
      simp only
      obtain ⟨l, body, padding, g1, g2, g3, g4, g5, g6, g7, g8, g9, g10, g11, g12⟩ :=
        C23_delivered K c c' buf q buf' s s' hb hr
      cases ps with
      | nil =>
        have := congrArg List.length (show s.inp ++ w' = [] from h)
        rw [g2] at this
        simp at this
      | cons p ps =>
        obtain ⟨pad, raw, w'', h1, h2, h3, h4⟩ := h
        have hf := h1.fits
        have hraw4 : raw.take 4 = Spec.u32 (1 + p.length + pad.length) := by rw [h1.bytes]; rfl
        have hrawd : raw.drop 4 = UInt8.ofNat pad.length :: (p ++ pad) := by rw [h1.bytes]; rfl
        rw [g2, Spec.sealed, hraw4, hrawd] at h3
        simp only [List.append_assoc] at h3
        obtain ⟨rfl, h3⟩ := List.append_inj h3 (by simp [g1])
        rw [sealLength_invol] at g3
        have hlen := u32_inj (by omega) g6 g3
        obtain ⟨rfl, h3⟩ := List.append_inj h3 (by
          rw [← hlen, sealBody_length, List.length_cons, List.length_append]; omega)
        obtain ⟨-, h3⟩ := List.append_inj h3 rfl
        rw [sealBody_invol, List.cons.injEq] at g4
        have hmx := h1.maxPad
        have hpl : pad.length = padding.length := by
          have := congrArg UInt8.toNat g4.1
          rw [UInt8.ofNat_toNat_mod, UInt8.ofNat_toNat_mod] at this
          omega
        obtain ⟨rfl, -⟩ := List.append_inj' g4.2 hpl
        rw [List.prefix_cons_inj]
        exact ih (w' := w') (by rw [g8, g9, h3]; exact h4) (by omega)

/-- C71: if no write was dropped, then a client that has the keys of the server for sending, and a buffer of
35000 bytes (RFC 4253, 6.1), reads from what the server has written after the handshake exactly the payloads
that the server has sent, as long as the connection has not ended. -/
theorem C71_client_reads (cfg : Config) (hid : Spec.Fits cfg.ident) (ops : List Op) {i : Nat} {c : Conn}
    {s s1 : IoSt} {as : List Client.Step} {cl : HostClient} {t : List Event}
    (hc : (run cfg ops).conns[i]? = some c)
    (ho : Spec.own i ops = some (s, as)) (hw : ¬ Spec.WriteCut as) (ht : c.io.log = s.log ++ t)
    (hne : t ≠ []) (hh : Host.handleNewClient cfg.K cfg.ident s = (ok cl, s1)) :
    ∃ w, c.io.out = s1.out ++ w ∧ ∀ (peer : ChaCha) (buf : Bytes) (sp : IoSt),
      Spec.keysOf peer = Spec.keysOf cl.sendCipher → peer.counter = 3 → 35000 ≤ buf.length → sp.inp = w →
      (∀ N, delivered cfg.K N peer buf sp <+: Spec.sentPayloads t) ∧
      (c.phase ≠ .ended →
        delivered cfg.K (Spec.sentPayloads t).length peer buf sp = Spec.sentPayloads t) := by
  obtain ⟨s', as', h1, h⟩ := whole_flow cfg hid ops hc
  rw [ho] at h1
  cases h1
  rcases h with ⟨-, h⟩ | ⟨-, r, h2, h3⟩ | ⟨cl', s1', t', w, u, v, r', g1, g2, g3, g4, g5, g6, g7⟩
  · rw [h] at ht
    exact absurd (List.append_cancel_left ((List.append_nil _).trans ht)).symm hne
  · rw [hh] at h2
    cases h2
    exact absurd rfl (h3 cl)
  · rw [hh] at g1
    cases g1
    rw [ht] at g2
    cases List.append_cancel_left g2
    obtain ⟨w', i1, i2, i3⟩ := written_stream hw g5
    refine ⟨w, g3, fun peer buf sp k1 k2 k3 k4 => ?_⟩
    rw [← k1, show 3 = peer.counter.toNat by rw [k2]; rfl, ← k4] at i1
    refine ⟨fun N => cut_delivered N i1 (by omega), fun hp => ?_⟩
    rw [i2 hp, List.append_nil] at i1
    exact stream_delivered i1 k3 (by rw [k2]; show 3 + _ < _; omega)

end Nora
