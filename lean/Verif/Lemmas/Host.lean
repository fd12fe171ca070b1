import Verif.Lemmas.Kex
import Verif.Lemmas.Text
import Verif.Lemmas.Ident
import Verif.Model.Host
import Verif.Props.Ident
import Verif.Props.Packet
import Verif.Props.Unframed
import Verif.Spec.Handshake
/-
The parts of the handshake, each described completely.
-/
namespace Nora
open R

variable {ε : Type}

/-! ### reading a packet -/

/-- a framed packet that fits the buffer is read -/
theorem PacketIo.parse_framed {buf : Bytes} {mode : Bool} {bs : BlockSize} {s : IoSt}
    {payload raw rest : Bytes} (h : Spec.Framed bs mode payload raw)
    (hfit : raw.length ≤ buf.length) (hi : s.inp = raw ++ rest) :
    ∃ p, PacketIo.parse buf mode bs s = (ok p, { s with inp := rest }) ∧
      (∀ ε : Type, (p.payload : R ε Bytes) = ok payload) ∧ p.data.length = buf.length := by
  obtain ⟨padding, hb, h255, ha, h8, hf⟩ := h
  have hrl : raw.length = 4 + (1 + payload.length + padding.length) := by rw [hb]; len
  rcases PacketIo.parse_cases (mode := mode) (bs := bs) (s := s) (show 4 ≤ buf.length by omega) with
    ⟨hs, e⟩ | ⟨n, r, hn, hi', e⟩
  · rw [hi] at hs; simp at hs; omega
  · have e0 : s.inp = Spec.u32 (1 + payload.length + padding.length) ++
        ((UInt8.ofNat padding.length :: (payload ++ padding)) ++ rest) := by
      rw [hi, hb]; simp
    rw [e0] at hi'
    obtain ⟨rfl, hr⟩ := u32Nat_app_inj hf hn hi'
    subst hr
    rcases e with ⟨h1, e⟩ | ⟨h1, h2, e⟩ | ⟨h1, h2, h3, e⟩ | ⟨h1, h2, h3, e⟩ | ⟨h1, h2, h3, e⟩
    · omega
    · omega
    · omega
    · simp at h3; omega
    · have hl : 1 + payload.length + padding.length =
          (UInt8.ofNat padding.length :: (payload ++ padding)).length := by len
      rw [hl, List.take_left, List.drop_left, ← hl] at e
      have hp : (UInt8.ofNat padding.length).toNat = padding.length :=
        UInt8.toNat_ofNat_of_lt' (by show _ < 256; omega)
      rw [List.cons_append, Packet.wrapRaw_eq hf, if_neg (fun h => h ha), hp,
        if_neg (by omega)] at e
      refine ⟨_, e, fun ε => ?_, by len⟩
      rw [Packet.payload_eq hf _ _ (by rw [hp]; omega) (by len), hp]
      congr 1
      rw [List.append_assoc, List.take_append_of_le_length (by omega), List.take_of_length_le (by omega)]

/-- Reading a packet: an error, a panic for the few lengths that do not fit behind the length field,
or a framed packet. -/
theorem PacketIo.parse_outcome {buf : Bytes} {mode : Bool} {bs : BlockSize} {s : IoSt}
    (h5 : 5 ≤ buf.length) :
    (∃ e i, PacketIo.parse buf mode bs s = (err e, { s with inp := i })) ∨
    (∃ n rest, s.inp = Spec.u32 n ++ rest ∧ n < 4294967296 ∧ 8 ≤ n ∧ n ≤ buf.length ∧
      buf.length < 4 + n ∧ PacketIo.parse buf mode bs s = (R.panic, { s with inp := rest })) ∨
    (∃ p payload raw rest, s.inp = raw ++ rest ∧ Spec.Framed bs mode payload raw ∧
      raw.length ≤ buf.length ∧ PacketIo.parse buf mode bs s = (ok p, { s with inp := rest }) ∧
      (∀ ε : Type, (p.payload : R ε Bytes) = ok payload) ∧ p.data.length = buf.length) := by
  rcases PacketIo.parse_cases (mode := mode) (bs := bs) (s := s) (show 4 ≤ buf.length by omega) with
    ⟨hs, e⟩ | ⟨n, r, hn, hi, e⟩
  · exact .inl ⟨_, _, e⟩
  · rcases e with ⟨h1, e⟩ | ⟨h1, h2, e⟩ | ⟨h1, h2, h3, e⟩ | ⟨h1, h2, h3, e⟩ | ⟨h1, h2, h3, e⟩
    · exact .inl ⟨_, _, e⟩
    · exact .inl ⟨_, _, e⟩
    · exact .inr (.inl ⟨n, r, hi, hn, h2, h1, h3, e⟩)
    · exact .inl ⟨_, _, e⟩
    · match r, h3 with
      | k :: r, h3 =>
        have e1 : (k :: r).take n = k :: r.take (n - 1) := by
          obtain ⟨m, rfl⟩ : ∃ m, n = m + 1 := ⟨n - 1, by omega⟩
          rfl
        by_cases ha : Spec.Aligned bs mode n
        · by_cases hk : k.toNat ≥ n
          · rw [e1, List.cons_append, Packet.wrapRaw_eq hn, if_neg (fun h => h ha), if_pos hk] at e
            exact .inl ⟨_, _, e⟩
          · right; right
            have hk255 := k.toNat_lt
            have h3' : n ≤ r.length + 1 := by simpa using h3
            have hf : Spec.Framed bs mode (r.take (n - 1 - k.toNat)) (Spec.u32 n ++ (k :: r).take n) := by
              have hl : 1 + (r.take (n - 1 - k.toNat)).length +
                  ((r.drop (n - 1 - k.toNat)).take k.toNat).length = n := by len
              have hl2 : ((r.drop (n - 1 - k.toNat)).take k.toNat).length = k.toNat := by len
              refine ⟨(r.drop (n - 1 - k.toNat)).take k.toNat, ?_, by omega, by rw [hl]; exact ha,
                by omega, by omega⟩
              rw [hl, hl2, e1, ← List.take_add, show n - 1 - k.toNat + k.toNat = n - 1 by omega]
              simp
            obtain ⟨p, hp1, hp2, hp3⟩ := PacketIo.parse_framed (buf := buf) (s := s)
              (rest := (k :: r).drop n) hf
              (by simp only [List.length_append, List.length_take, Spec.u32, List.length_cons,
                List.length_nil]; omega)
              (by rw [hi, List.append_assoc, List.take_append_drop])
            exact ⟨p, _, _, _, by rw [hi, List.append_assoc, List.take_append_drop], hf,
              (by simp only [List.length_append, List.length_take, Spec.u32, List.length_cons,
                List.length_nil]; omega), hp1, hp2, hp3⟩
        · rw [e1, List.cons_append, Packet.wrapRaw_eq hn, if_pos ha] at e
          exact .inl ⟨_, _, e⟩
      | [], h3 => simp at h3; omega

/-- framing determines payload and packet -/
theorem framed_unique {bs : BlockSize} {mode : Bool} {pay pay' raw raw' rest rest' : Bytes}
    (h : Spec.Framed bs mode pay raw) (h' : Spec.Framed bs mode pay' raw')
    (e : raw ++ rest = raw' ++ rest') : pay = pay' ∧ raw = raw' ∧ rest = rest' := by
  obtain ⟨p, hb, h255, _, _, hf⟩ := h
  obtain ⟨p', hb', h255', _, _, hf'⟩ := h'
  have e0 := e
  rw [hb, hb', List.append_assoc, List.append_assoc] at e
  obtain ⟨hn, e⟩ := u32Nat_app_inj hf hf' e
  simp only [List.cons_append, List.cons.injEq] at e
  have hp : p.length = p'.length := by
    have := congrArg UInt8.toNat e.1
    rwa [UInt8.toNat_ofNat_of_lt' (by show _ < 256; omega),
      UInt8.toNat_ofNat_of_lt' (by show _ < 256; omega)] at this
  have hraw : raw.length = raw'.length := by rw [hb, hb']; simp; omega
  obtain ⟨r1, r2⟩ := List.append_inj e0 hraw
  have e2 := e.2
  rw [List.append_assoc, List.append_assoc] at e2
  exact ⟨(List.append_inj e2 (by omega)).1, r1, r2⟩

theorem Spec.NextPacket.unique {N N' : Nat} {s p r p' r' : Bytes} (h : Spec.NextPacket N s p r)
    (h' : Spec.NextPacket N' s p' r') : p = p' ∧ r = r' := by
  obtain ⟨raw, e, hf, _⟩ := h
  obtain ⟨raw', e', hf', _⟩ := h'
  have := framed_unique hf hf' (e.symm.trans e')
  exact ⟨this.1, this.2.2⟩

theorem Spec.NextPacket.not_window {N : Nat} {s p r : Bytes} (hN : N < 4294967296)
    (h : Spec.NextPacket N s p r) : ¬ Spec.LengthInWindow N s := by
  rintro ⟨n, rest, e, h8, h1, h2⟩
  obtain ⟨raw, e', ⟨pad, hr, _, _, _, hlt⟩, hl⟩ := h
  rw [e, hr, List.append_assoc] at e'
  have := (u32Nat_app_inj (by omega) hlt e').1
  have : raw.length = 4 + n := by
    rw [hr, this]; len
  omega

theorem PacketIo.parse_not_window {buf : Bytes} {mode : Bool} {bs : BlockSize} {s : IoSt}
    (h5 : 5 ≤ buf.length) (hb : buf.length < 4294967296)
    (h : (PacketIo.parse buf mode bs s).1 ≠ R.panic) : ¬ Spec.LengthInWindow buf.length s.inp := by
  rintro ⟨n, rest, hi, h8, h1, h2⟩
  exact h ((C17_no_panic_partial buf mode bs s h5).mpr ⟨n, rest, hi, h8, h1, h2, by omega⟩)

/-! ### writing -/

theorem M.writeAll_cases (d : Bytes) (s : IoSt) :
    (∃ w, M.writeAll d s = (ok (), { s with out := s.out ++ d, wcap := w }) ∧
      (s.wcap = none → w = none)) ∨
    (s.wcap ≠ none ∧ ∃ n, M.writeAll d s = (err (), { s with out := s.out ++ d.take n, wcap := some 0 })) := by
  cases h : s.wcap with
  | none => exact .inl ⟨none, by simp [M.writeAll, h], by simp⟩
  | some n =>
    by_cases hn : d.length ≤ n
    · exact .inl ⟨some (n - d.length), by simp [M.writeAll, h, hn], by simp⟩
    · exact .inr ⟨by simp, n, by simp [M.writeAll, h, hn]⟩

/-- `m` serialises to `e` -/
def Writes (m : Message) (e : Bytes) : Prop :=
  ∀ buf, m.serialize buf = if e.length ≤ buf.length then ok (e, buf.drop e.length) else err ()

/-- wrapping a message in a buffer that is large enough -/
theorem wrap_message {m : Message} {e : Bytes} (hm : Writes m e) {buf : Bytes} (rng : Tape)
    (hb : e.length + 72 ≤ buf.length) (hb2 : buf.length < 4294967296) :
    ∃ k p raw, Spec.LeastPad .b8 true e.length k ∧
      (∀ ε : Type, (Packet.wrap buf .b8 true (Message.write m) rng : R ε _) = ok (p, rng.skip k)) ∧
      Spec.PacketOf .b8 true e (rng.bytes k) raw ∧
      (∀ ε : Type, (p.asRaw : R ε Bytes) = ok raw) ∧
      (∀ ε : Type, (p.intoRaw 0 : R ε Bytes) = ok raw) ∧
      (∀ ε : Type, (p.payload : R ε Bytes) = ok e) ∧ p.data.length = buf.length := by
  obtain ⟨k, hk⟩ := leastPad_exists .b8 true e.length
  have hk67 := leastPad_le hk
  have hk4 := hk.1
  have hl : (rng.bytes k).length = k := by simp [Tape.bytes]
  have hpo : Spec.PacketOf .b8 true e (rng.bytes k) (Spec.u32 (1 + e.length + k) ++
      (UInt8.ofNat k :: (e ++ rng.bytes k))) :=
    ⟨by rw [hl], by omega, by omega, by rw [hl]; exact hk.2.1, by rw [hl]; omega⟩
  have hw : ∀ ε : Type, (Message.write m (buf.drop 5) : R ε _) =
      ok (e.length, e ++ (buf.drop 5).drop e.length) := by
    intro ε
    rw [Message.write, hm, if_pos (by len)]; rfl
  refine ⟨k, ⟨(Spec.u32 (1 + e.length + k) ++ (UInt8.ofNat k :: (e ++ rng.bytes k))) ++
    buf.drop (5 + e.length + k)⟩, _, hk, fun ε => ?_, hpo, ?_, ?_, ?_, ?_⟩
  · rw [Packet.wrap_eq (by omega) (hw ε) (by len) hk, if_pos (by omega)]
    have h1 : (e ++ (buf.drop 5).drop e.length).take e.length = e := by simp
    have h2 : (e ++ (buf.drop 5).drop e.length).drop (e.length + k) =
        buf.drop (5 + e.length + k) := by
      rw [List.drop_append, List.drop_eq_nil_of_le (by omega), List.nil_append, List.drop_drop,
        List.drop_drop]
      congr 1; omega
    rw [h1, h2]
    simp
  · intro ε; exact (Packet.wrapRaw_packetOf (ε := ε) hpo _).2.2
  · intro ε
    have := Packet.intoRaw_packetOf (ε := ε) [] (buf.drop (5 + e.length + k)) hpo
    simpa using this
  · intro ε; exact (Packet.wrapRaw_packetOf (ε := ε) hpo _).2.1
  · len

theorem writes_of_WF {m : Message} (h : Spec.WF m) : Writes m (Spec.encode m) :=
  fun buf => Message.serialize_eq_all h buf

/-! ### the first flight -/

/-- the KEXINIT payload of the server -/
def kexPayload : Bytes := Spec.encode (.kexInit Host.kexInit)

theorem nlWF_one {s : Bytes} (h : Spec.Name s) (hl : Spec.Fits s) : Spec.nlWF ⟨s⟩ :=
  ⟨hl, [s], fun n hn => by rw [List.mem_singleton.mp hn]; exact h, rfl⟩

theorem Host.kexInit_WF : Spec.WF (.kexInit Host.kexInit) := by
  refine ⟨by decide, nlWF_one (by decide) (by decide), nlWF_one (by decide) (by decide),
    nlWF_one (by decide) (by decide), nlWF_one (by decide) (by decide),
    nlWF_one (by decide) (by decide), nlWF_one (by decide) (by decide),
    nlWF_one (by decide) (by decide), nlWF_one (by decide) (by decide),
    ⟨by decide, [], by simp, rfl⟩, ⟨by decide, [], by simp, rfl⟩⟩

theorem kexPayload_length : kexPayload.length = 172 := by rfl

theorem Host.hello_cases (ident : Bytes) (s : IoSt) :
    ∃ (k : Nat) (p : Packet) (raw : Bytes), Spec.PacketOf .b8 true kexPayload (s.rng.bytes k) raw ∧
      Spec.LeastPad .b8 true kexPayload.length k ∧
      (∀ ε : Type, (p.payload : R ε Bytes) = ok kexPayload) ∧
      ((∃ w, Host.hello ident s = (ok p, { s with
            out := s.out ++ (ident ++ Spec.crlf ++ raw), wcap := w, rng := s.rng.skip k }) ∧
          (s.wcap = none → w = none)) ∨
       (s.wcap ≠ none ∧ ∃ s' n, Host.hello ident s = (err .write, s') ∧ s'.inp = s.inp ∧
          s'.log = s.log ∧ s'.out = s.out ++ (ident ++ Spec.crlf ++ raw).take n)) := by
  obtain ⟨k, p, raw, hk, hw, hpo, har, _, hpay, _⟩ := wrap_message (buf := List.replicate 256 0)
    (writes_of_WF Host.kexInit_WF) s.rng
    (by rw [show Spec.encode _ = kexPayload from rfl, kexPayload_length, List.length_replicate]; omega)
    (by rw [List.length_replicate]; omega)
  refine ⟨k, p, raw, hpo, hk, hpay, ?_⟩
  rcases M.writeAll_cases ident s with ⟨w1, e1, n1⟩ | ⟨c1, n, e1⟩
  · rcases M.writeAll_cases (b! "\r\n") { s with out := s.out ++ ident, wcap := w1 } with
      ⟨w2, e2, n2⟩ | ⟨c2, n, e2⟩
    · have hs : (Ident.send ident).mapErr (fun _ => HandshakeError.write) s =
          (ok (), { s with out := s.out ++ ident ++ Spec.crlf, wcap := w2 }) := by
        rw [M.mapErr_run, Ident.send, M.bind_ok e1, e2]; rfl
      have hr : (M.withRng (Packet.wrap (List.replicate 256 0) .b8 true
          (Message.write (.kexInit Host.kexInit))) : M HandshakeError Packet)
          { s with out := s.out ++ ident ++ Spec.crlf, wcap := w2 } =
          (ok p, { s with out := s.out ++ ident ++ Spec.crlf, wcap := w2, rng := s.rng.skip k }) := by
        simp only [M.withRng, hw]
      rcases M.writeAll_cases raw { s with
          out := s.out ++ ident ++ Spec.crlf, wcap := w2, rng := s.rng.skip k } with
        ⟨w3, e3, n3⟩ | ⟨c3, n, e3⟩
      · left
        refine ⟨w3, ?_, fun h => n3 (n2 (n1 h))⟩
        rw [Host.hello, M.bind_ok hs, M.bind_ok hr, har, M.lift_ok_bind,
          M.bind_ok (by rw [M.mapErr_run, e3]; rfl)]
        simp
      · right
        refine ⟨fun h => c3 (n2 (n1 h)), { s with
          out := s.out ++ ident ++ Spec.crlf ++ raw.take n, wcap := some 0, rng := s.rng.skip k }, (ident ++ Spec.crlf).length + n, ?_, ?_, ?_, ?_⟩
        · rw [Host.hello, M.bind_ok hs, M.bind_ok hr, har, M.lift_ok_bind,
            M.bind_err (by rw [M.mapErr_run, e3]; rfl)]
        · rfl
        · rfl
        · show _ ++ _ = _
          rw [List.take_length_add_append]
          simp
    · right
      refine ⟨fun h => c2 (n1 h), { s with
        out := s.out ++ ident ++ (b! "\r\n").take n, wcap := some 0 }, ident.length + min n 2, ?_, ?_, ?_, ?_⟩
      · rw [Host.hello, M.bind_err (by rw [M.mapErr_run, Ident.send, M.bind_ok e1, e2]; rfl)]
      · rfl
      · rfl
      · show _ ++ _ = _
        rw [List.append_assoc, List.append_assoc, List.take_length_add_append,
          List.take_append_of_le_length (by show min n 2 ≤ 2; omega)]
        congr 2
        show (Spec.crlf).take n = _
        rw [← List.take_length (l := Spec.crlf), List.take_take]; rfl
  · right
    refine ⟨c1, { s with out := s.out ++ ident.take n, wcap := some 0 }, min n ident.length,
      ?_, ?_, ?_, ?_⟩
    · rw [Host.hello, M.bind_err (by rw [M.mapErr_run, Ident.send, M.bind_err e1]; rfl)]
    · rfl
    · rfl
    · show _ ++ _ = _
      rw [List.append_assoc, List.take_append_of_le_length (by omega), ← List.take_take,
        List.take_length]

/-! ### the client's KEXINIT -/

theorem Host.anyName_eq {l : NameList} {names ns : List Bytes} (h : Spec.NameListOf names l.str) :
    (Host.anyName l ns : R ε Bool) = ok (names.any (fun s => ns.any (fun t => t == s))) := by
  rw [Host.anyName, NameList.iter_eq h]; rfl

theorem any_single (names : List Bytes) (n : Bytes) :
    (names.any (fun s => [n].any (fun t => t == s))) = true ↔
      Spec.negotiate names [n] = some n := by
  induction names with
  | nil => simp [Spec.negotiate]
  | cons a t ih =>
    rw [List.any_cons, Bool.or_eq_true, ih]
    unfold Spec.negotiate
    by_cases h : a = n
    · subst h; simp
    · have h' : ¬ n = a := fun e => h e.symm
      rw [List.find?_cons_of_neg (by simp [h])]
      simp [h']

theorem negotiate_single {names : List Bytes} {n m : Bytes}
    (h : Spec.negotiate names [n] = some m) : m = n ∧ n ∈ names := by
  unfold Spec.negotiate at h
  have h1 := List.find?_some h
  have h2 := List.mem_of_find?_eq_some h
  simp at h1
  subst h1
  exact ⟨rfl, h2⟩

/-- the four negotiations that are needed succeed -/
def Negotiated (o : Kex.KexInit) : Prop :=
  ∃ a b c d, Spec.NameListOf a o.kexAlgorithms.str ∧
    Spec.NameListOf b o.serverHostKeyAlgorithms.str ∧
    Spec.NameListOf c o.encryptionAlgorithmsClientToServer.str ∧
    Spec.NameListOf d o.encryptionAlgorithmsServerToClient.str ∧
    Spec.negotiate a [b! "curve25519-sha256"] = some (b! "curve25519-sha256") ∧
    Spec.negotiate b [b! "ecdsa-sha2-nistp256"] = some (b! "ecdsa-sha2-nistp256") ∧
    Spec.negotiate c [b! "chacha20-poly1305@openssh.com"] =
      some (b! "chacha20-poly1305@openssh.com") ∧
    Spec.negotiate d [b! "chacha20-poly1305@openssh.com"] =
      some (b! "chacha20-poly1305@openssh.com")

theorem Host.supported_eq {o : Kex.KexInit} (h : Spec.WF (.kexInit o)) :
    ∃ r, (∀ ε : Type, (Host.supported o : R ε Bool) = ok r) ∧ (r = true ↔ Negotiated o) := by
  obtain ⟨_, ⟨_, a, ha⟩, ⟨_, b, hb⟩, ⟨_, c, hc⟩, ⟨_, d, hd⟩, _⟩ := h
  have ra := any_single a (b! "curve25519-sha256")
  have rb := any_single b (b! "ecdsa-sha2-nistp256")
  have rc := any_single c (b! "chacha20-poly1305@openssh.com")
  have rd := any_single d (b! "chacha20-poly1305@openssh.com")
  have ea := fun ε => Host.anyName_eq (ε := ε) (ns := algorithmNames) ha
  have eb := fun ε => Host.anyName_eq (ε := ε) (ns := [hostKeyName]) hb
  have ec := fun ε => Host.anyName_eq (ε := ε) (ns := cipherNames) hc
  have ed := fun ε => Host.anyName_eq (ε := ε) (ns := cipherNames) hd
  have hN : Negotiated o ↔
      (a.any (fun s => algorithmNames.any (fun t => t == s))) = true ∧
      (b.any (fun s => [hostKeyName].any (fun t => t == s))) = true ∧
      (c.any (fun s => cipherNames.any (fun t => t == s))) = true ∧
      (d.any (fun s => cipherNames.any (fun t => t == s))) = true := by
    constructor
    · rintro ⟨a', b', c', d', ha', hb', hc', hd', na, nb, nc, nd⟩
      rw [nameListOf_unique ha' ha] at na
      rw [nameListOf_unique hb' hb] at nb
      rw [nameListOf_unique hc' hc] at nc
      rw [nameListOf_unique hd' hd] at nd
      exact ⟨ra.mpr na, rb.mpr nb, rc.mpr nc, rd.mpr nd⟩
    · rintro ⟨na, nb, nc, nd⟩
      exact ⟨a, b, c, d, ha, hb, hc, hd, ra.mp na, rb.mp nb, rc.mp nc, rd.mp nd⟩
  rw [hN]
  generalize (a.any (fun s => algorithmNames.any (fun t => t == s))) = xa at *
  generalize (b.any (fun s => [hostKeyName].any (fun t => t == s))) = xb at *
  generalize (c.any (fun s => cipherNames.any (fun t => t == s))) = xc at *
  generalize (d.any (fun s => cipherNames.any (fun t => t == s))) = xd at *
  refine ⟨xa && (xb && (xc && xd)), fun ε => ?_, by simp⟩
  simp only [Host.supported, ea, ok_bind, eb, ec, ed]
  cases xa <;> cases xb <;> cases xc <;> cases xd <;> rfl

theorem Message.intoKexInit_cases (m : Message) :
    (∃ o, m = .kexInit o ∧ m.intoKexInit = ok o) ∨ ((∀ o, m ≠ .kexInit o) ∧ m.intoKexInit = err ()) := by
  cases m <;> simp [Message.intoKexInit]

theorem Message.intoKexEcdhInit_cases (m : Message) :
    (∃ o, m = .kexEcdhInit o ∧ m.intoKexEcdhInit = ok o) ∨
      ((∀ o, m ≠ .kexEcdhInit o) ∧ m.intoKexEcdhInit = err ()) := by
  cases m <;> simp [Message.intoKexEcdhInit]

theorem Message.intoNewKeys_cases (m : Message) :
    (m = .newKeys ∧ m.intoNewKeys = ok ()) ∨ (m ≠ .newKeys ∧ m.intoNewKeys = err ()) := by
  cases m <;> simp [Message.intoNewKeys]

theorem Message.parse_kexInit_WF {b : Bytes} {o : Kex.KexInit}
    (h : Message.parse b = ok (.kexInit o)) : Spec.WF (.kexInit o) :=
  ((Message.parse_iff rfl).mp h).1

/-- why the client's identification string and KEXINIT are not accepted, apart from the algorithms -/
inductive Early (N : Nat) (inp : Bytes) : HandshakeError → Prop
  | ident {e} : Ident.parseStream inp = err e → Early N inp (.parseIdentifier e)
  | packet {id r e rest} : Ident.parseStream inp = ok (id, r) → Spec.Unframed .b8 true N r e rest →
    Early N inp (.packetParse e)
  | malformed {id r pay rest e} : Ident.parseStream inp = ok (id, r) → Spec.NextPacket N r pay rest →
    Message.parse pay = err e → Early N inp (.messageParse e)
  | other {id r pay rest m} : Ident.parseStream inp = ok (id, r) → Spec.NextPacket N r pay rest →
    Message.parse pay = ok m → (∀ o, m ≠ .kexInit o) → Early N inp .expectedKeyExchangeInit

/-- what follows after the client's identification string -/
theorem Host.receiveHello_cases {ident pktBuf : Bytes} {hostPkt : Packet} {s : IoSt}
    (hid : Spec.Fits ident)
    (hp : ∀ ε : Type, (hostPkt.payload : R ε Bytes) = ok kexPayload)
    (h5 : 5 ≤ pktBuf.length) (hb : pktBuf.length < 4294967296) :
    -- an error that has nothing to do with the algorithms
    (∃ e i, Host.receiveHello ident hostPkt pktBuf s = (err e, { s with inp := i }) ∧
      e ≠ .unsupportedAlgorithms ∧
      (∀ id r, Ident.parseStream s.inp = ok (id, r) → ¬ Spec.LengthInWindow pktBuf.length r) ∧
      -- and not because the client did not send a KEXINIT
      (∀ id raw pay o rest, Ident.parseStream s.inp = ok (id, raw ++ rest) →
        Spec.Framed .b8 true pay raw → raw.length ≤ pktBuf.length →
        Message.parse pay ≠ ok (.kexInit o)) ∧ Early pktBuf.length s.inp e) ∨
    -- a packet length that does not fit behind the length field
    (∃ id n rest, Ident.parseStream s.inp = ok (id, Spec.u32 n ++ rest) ∧ n < 4294967296 ∧ 8 ≤ n ∧
      n ≤ pktBuf.length ∧ pktBuf.length < 4 + n ∧
      Host.receiveHello ident hostPkt pktBuf s = (R.panic, { s with inp := rest })) ∨
    -- a KEXINIT
    (∃ id raw pay o rest b, Ident.parseStream s.inp = ok (id, raw ++ rest) ∧
      Spec.Framed .b8 true pay raw ∧ raw.length ≤ pktBuf.length ∧
      Message.parse pay = ok (.kexInit o) ∧ b.length = pktBuf.length ∧
      ((Negotiated o ∧ Host.receiveHello ident hostPkt pktBuf s =
          (ok (Spec.str id ++ Spec.str ident ++ Spec.str pay ++ Spec.str kexPayload, b),
            { s with inp := rest })) ∨
       (¬ Negotiated o ∧ Host.receiveHello ident hostPkt pktBuf s =
          (err .unsupportedAlgorithms, { s with inp := rest })))) := by
  cases h1 : Ident.parseStream s.inp with
  | err e =>
    left
    refine ⟨.parseIdentifier e, [], ?_, by simp, (by intro _ _ h; cases h), ?_, .ident h1⟩
    · rw [Host.receiveHello, M.bind_err]
      rw [M.mapErr_run, Ident.parse, h1]; rfl
    · intro _ _ _ _ _ h; cases h
  | panic => exact absurd h1 (C21_no_panic _)
  | ok x =>
    obtain ⟨id, r⟩ := x
    have hidl : Spec.Fits id := by
      obtain ⟨⟨_, hl, _⟩, _⟩ := C21_sound _ _ _ h1
      unfold Spec.Fits; omega
    have e1 : Ident.parse.mapErr HandshakeError.parseIdentifier s = (ok id, { s with inp := r }) := by
      rw [M.mapErr_run, Ident.parse, h1]; rfl
    have e2 : Host.receiveHello ident hostPkt pktBuf s =
        ((PacketIo.parse pktBuf true .b8).mapErr HandshakeError.packetParse >>= fun pkt => do
          let payload ← M.lift pkt.payload
          let h ← M.lift (KexDigest.clientKexInit (Spec.str id ++ Spec.str ident) payload)
          let hostPayload ← M.lift hostPkt.payload
          let h ← M.lift (KexDigest.serverKexInit h hostPayload)
          let msg ← M.lift ((Message.parse payload).mapErr .messageParse)
          let msg ← M.lift (msg.intoKexInit.okOr .expectedKeyExchangeInit)
          if !(← M.lift (Host.supported msg)) then M.fail .unsupportedAlgorithms
          else pure (h, pkt.data)) { s with inp := r } := by
      rw [Host.receiveHello, M.bind_ok e1, KexDigest.clientId, KexDigest.f_eq _ hidl,
        M.lift_ok_bind, KexDigest.serverId, KexDigest.f_eq _ hid, M.lift_ok_bind, List.nil_append]
    rcases PacketIo.parse_outcome (mode := true) (bs := .b8) (s := { s with inp := r }) h5 with
      ⟨e, i, e3⟩ | ⟨n, rest, hi, hn, h8, hl1, hl2, e3⟩ |
      ⟨p, pay, raw, rest, hi, hf, hfit, e3, hpp, hpl⟩
    · left
      obtain ⟨_, hu, _⟩ := (C17_errors pktBuf true .b8 { s with inp := r } _ e (by omega)).mp e3
      refine ⟨.packetParse e, i, ?_, by simp, ?_, ?_, .packet h1 hu⟩
      · rw [e2, M.bind_err (by rw [M.mapErr_run, e3]; rfl)]
      · intro id' r' h
        simp only [R.ok.injEq, Prod.mk.injEq] at h
        rw [← h.2]
        exact PacketIo.parse_not_window (s := { s with inp := r }) h5 hb (by rw [e3]; simp)
      · intro id' raw pay o rest h hf hfit hm
        simp only [R.ok.injEq, Prod.mk.injEq] at h
        obtain ⟨p, e4, _⟩ := PacketIo.parse_framed (buf := pktBuf) (s := { s with inp := r })
          (rest := rest) hf hfit h.2
        rw [e3] at e4
        simp at e4
    · right; left
      simp only at hi
      refine ⟨id, n, rest, by rw [hi], hn, h8, hl1, hl2, ?_⟩
      rw [e2, M.bind_panic (by rw [M.mapErr_run, e3]; rfl)]
    · simp only at hi
      have hpf : Spec.Fits pay := by
        obtain ⟨_, _, _, _, _, hh⟩ := hf
        unfold Spec.Fits; omega
      have e4 : Host.receiveHello ident hostPkt pktBuf s = (show M HandshakeError (Bytes × Bytes) from do
          let msg ← M.lift ((Message.parse pay).mapErr .messageParse)
          let msg ← M.lift (msg.intoKexInit.okOr .expectedKeyExchangeInit)
          if !(← M.lift (Host.supported msg)) then M.fail .unsupportedAlgorithms
          else pure (Spec.str id ++ Spec.str ident ++ Spec.str pay ++ Spec.str kexPayload, p.data))
            { s with inp := rest } := by
        rw [e2, M.bind_ok (by rw [M.mapErr_run, e3]; rfl), hpp, M.lift_ok_bind,
          KexDigest.clientKexInit, KexDigest.f_eq _ hpf, M.lift_ok_bind, hp, M.lift_ok_bind,
          KexDigest.serverKexInit, KexDigest.f_eq _ (by rw [Spec.Fits, kexPayload_length]; omega),
          M.lift_ok_bind]
      have huniq : ∀ id' raw' pay' rest', (ok (id, r) : R ParseIdentError _) = ok (id', raw' ++ rest') →
          Spec.Framed .b8 true pay' raw' → pay' = pay := by
        intro id' raw' pay' rest' h hf'
        simp only [R.ok.injEq, Prod.mk.injEq] at h
        rw [hi] at h
        exact (framed_unique hf hf' h.2).1.symm
      have hnw : ∀ id' r', (ok (id, r) : R ParseIdentError _) = ok (id', r') →
          ¬ Spec.LengthInWindow pktBuf.length r' := by
        intro id' r' h
        simp only [R.ok.injEq, Prod.mk.injEq] at h
        rw [← h.2]
        exact Spec.NextPacket.not_window hb ⟨raw, hi, hf, hfit⟩
      cases hm : Message.parse pay with
      | panic => exact absurd hm Message.parse_ne_panic
      | err e =>
        left
        refine ⟨.messageParse e, rest, by rw [e4, hm]; rfl, by simp, hnw, ?_,
          .malformed h1 ⟨raw, hi, hf, hfit⟩ hm⟩
        intro id' raw' pay' o rest' h hf' _ hm'
        rw [huniq _ _ _ _ h hf', hm] at hm'
        cases hm'
      | ok m =>
        rcases Message.intoKexInit_cases m with ⟨o, rfl, hk⟩ | ⟨hk1, hk⟩
        · right; right
          obtain ⟨b, hs, hb⟩ := Host.supported_eq (Message.parse_kexInit_WF hm)
          refine ⟨id, raw, pay, o, rest, p.data, by rw [hi], hf, hfit, hm, hpl, ?_⟩
          cases b with
          | true =>
            left
            refine ⟨hb.mp rfl, ?_⟩
            rw [e4, hm]
            simp only [R.mapErr, M.lift_ok_bind, hk, R.okOr, hs]
            rfl
          | false =>
            right
            refine ⟨fun hN => by simpa using hb.mpr hN, ?_⟩
            rw [e4, hm]
            simp only [R.mapErr, M.lift_ok_bind, hk, R.okOr, hs]
            rfl
        · left
          refine ⟨.expectedKeyExchangeInit, rest, ?_, by simp, hnw, ?_,
            .other h1 ⟨raw, hi, hf, hfit⟩ hm hk1⟩
          · rw [e4, hm]
            simp only [R.mapErr, M.lift_ok_bind, hk, R.okOr]
            rfl
          · intro id' raw' pay' o rest' h hf' _ hm'
            rw [huniq _ _ _ _ h hf', hm] at hm'
            exact hk1 o (by simpa using hm')

/-! ### the client's ephemeral key -/

/-- the payload is an ECDH_INIT with a key of 32 bytes -/
def GoodKey (pay clientPublic : Bytes) : Prop :=
  Message.parse pay = ok (.kexEcdhInit ⟨clientPublic⟩) ∧ clientPublic.length = 32

theorem Host.receiveKey_cases {pktBuf : Bytes} {s : IoSt} (h5 : 5 ≤ pktBuf.length)
    (hb : pktBuf.length < 4294967296) :
    (∃ e i, Host.receiveKey pktBuf s =
        (err (.packetParse e), { s with inp := i, rng := s.rng.skip 32 }) ∧
      ¬ Spec.LengthInWindow pktBuf.length s.inp ∧
      (∀ raw pay rest, s.inp = raw ++ rest → Spec.Framed .b8 true pay raw →
        pktBuf.length < raw.length) ∧ Spec.Unframed .b8 true pktBuf.length s.inp e i) ∨
    (∃ n rest, s.inp = Spec.u32 n ++ rest ∧ n < 4294967296 ∧ 8 ≤ n ∧ n ≤ pktBuf.length ∧
      pktBuf.length < 4 + n ∧
      Host.receiveKey pktBuf s = (R.panic, { s with inp := rest, rng := s.rng.skip 32 })) ∨
    (∃ raw pay rest, s.inp = raw ++ rest ∧ Spec.Framed .b8 true pay raw ∧
      raw.length ≤ pktBuf.length ∧
      ((∃ cp b, GoodKey pay cp ∧ b.length = pktBuf.length ∧ Host.receiveKey pktBuf s =
          (ok (s.rng.bytes 32, cp, b), { s with inp := rest, rng := s.rng.skip 32 })) ∨
       ((∀ cp, ¬ GoodKey pay cp) ∧ Host.receiveKey pktBuf s =
          (R.panic, { s with inp := rest, rng := s.rng.skip 32 })))) := by
  have e0 : (M.withRng (fun t => .ok (t.bytes 32, t.skip 32)) : M HandshakeError Bytes) s =
      (ok (s.rng.bytes 32), { s with rng := s.rng.skip 32 }) := rfl
  rcases PacketIo.parse_outcome (mode := true) (bs := .b8)
      (s := { s with rng := s.rng.skip 32 }) h5 with
    ⟨e, i, e3⟩ | ⟨n, rest, hi, hn, h8, hl1, hl2, e3⟩ |
    ⟨p, pay, raw, rest, hi, hf, hfit, e3, hpp, hpl⟩
  · left
    obtain ⟨_, hu, hi⟩ := (C17_errors pktBuf true .b8 { s with rng := s.rng.skip 32 } _ e (by omega)).mp e3
    refine ⟨e, i, ?_, ?_, ?_, by rw [show i = _ from congrArg IoSt.inp hi]; exact hu⟩
    · rw [Host.receiveKey, M.bind_ok e0, M.bind_err (by rw [M.mapErr_run, e3]; rfl)]
    · exact PacketIo.parse_not_window (s := { s with rng := s.rng.skip 32 }) h5 hb
        (by rw [e3]; simp)
    · intro raw pay rest hi hf
      refine Nat.lt_of_not_le fun hfit => ?_
      obtain ⟨p, e4, _⟩ := PacketIo.parse_framed (buf := pktBuf)
        (s := { s with rng := s.rng.skip 32 }) (rest := rest) hf hfit hi
      rw [e3] at e4
      simp at e4
  · right; left
    refine ⟨n, rest, hi, hn, h8, hl1, hl2, ?_⟩
    rw [Host.receiveKey, M.bind_ok e0, M.bind_panic (by rw [M.mapErr_run, e3]; rfl)]
  · right; right
    refine ⟨raw, pay, rest, hi, hf, hfit, ?_⟩
    have e4 : Host.receiveKey pktBuf s = (do
        let msg ← M.lift (Message.parse pay).unwrap
        let msg ← M.lift msg.intoKexEcdhInit.unwrap
        M.lift (assertP (msg.clientEphermalPublicKey.length == 32))
        pure (s.rng.bytes 32, msg.clientEphermalPublicKey, p.data))
          { s with inp := rest, rng := s.rng.skip 32 } := by
      rw [Host.receiveKey, M.bind_ok e0, M.bind_ok (by rw [M.mapErr_run, e3]; rfl), hpp,
        M.lift_ok_bind]
    cases hm : Message.parse pay with
    | panic => exact absurd hm Message.parse_ne_panic
    | err e =>
      right
      refine ⟨fun cp h => ?_, by rw [e4, hm]; rfl⟩
      rw [GoodKey, hm] at h
      obtain ⟨h, _⟩ := h
      cases h
    | ok m =>
      rcases Message.intoKexEcdhInit_cases m with ⟨o, rfl, hk⟩ | ⟨hk1, hk⟩
      · by_cases hl : o.clientEphermalPublicKey.length = 32
        · left
          refine ⟨o.clientEphermalPublicKey, p.data, ⟨hm, hl⟩, hpl, ?_⟩
          rw [e4, hm]
          simp only [R.unwrap, M.lift_ok_bind, hk, hl, assertP]
          rfl
        · right
          refine ⟨fun cp h => ?_, ?_⟩
          · obtain ⟨h1, h2⟩ := h
            rw [hm] at h1
            simp only [R.ok.injEq, Message.kexEcdhInit.injEq] at h1
            rw [h1] at hl
            exact hl h2
          · rw [e4, hm]
            have : (assertP (o.clientEphermalPublicKey.length == 32) : R HandshakeError Unit) =
                R.panic := by
              simp [assertP, hl]
            simp only [R.unwrap, M.lift_ok_bind, hk, this]
            rfl
      · right
        refine ⟨fun cp h => ?_, ?_⟩
        · have := h.1
          rw [hm, R.ok.injEq] at this
          exact hk1 _ this
        · rw [e4, hm]
          simp only [R.unwrap, M.lift_ok_bind, hk]
          rfl

/-! ### the server's reply -/

/-- the reply -/
def replyPayload (K : Crypto) (serverPublic hash : Bytes) : Bytes :=
  31 :: (Spec.str (Spec.hostKey (Host.publicKey K)) ++ Spec.str serverPublic ++
    Spec.str (Spec.sigBlob (b! "ecdsa-sha2-nistp256") (mpBody (K.sign hash).1)
      (mpBody (K.sign hash).2)))

theorem hostKey_length (K : Crypto) : (Spec.hostKey (Host.publicKey K)).length = 104 := by
  simp [Spec.hostKey, Host.publicKey, str_length, K.hostPoint_length]

theorem sigBlob_length (K : Crypto) (hash : Bytes) :
    (Spec.sigBlob (b! "ecdsa-sha2-nistp256") (mpBody (K.sign hash).1)
      (mpBody (K.sign hash).2)).length ≤ 101 := by
  have h1 := mpBody_length (K.sign hash).1
  have h2 := mpBody_length (K.sign hash).2
  rw [(K.sign_length hash).1] at h1
  rw [(K.sign_length hash).2] at h2
  simp [Spec.sigBlob, str_length]; omega

theorem replyPayload_length (K : Crypto) {sp : Bytes} (hash : Bytes) (h : sp.length = 32) :
    (replyPayload K sp hash).length ≤ 250 := by
  have h1 := hostKey_length K
  have h2 := sigBlob_length K hash
  rw [replyPayload]
  simp only [List.length_cons, List.length_append, str_length, h1, h]
  omega

theorem reply_writes (K : Crypto) {sp : Bytes} (hash : Bytes) (h : sp.length = 32) :
    Writes (.kexEcdhReply (Host.reply K sp hash)) (replyPayload K sp hash) := by
  intro buf
  have h1 := hostKey_length K
  have h2 := sigBlob_length K hash
  have := Kex.EcdhReply.fills' (o := Host.reply K sp hash)
    (by show Spec.Fits (Spec.hostKey (Host.publicKey K)); unfold Spec.Fits; omega)
    (by show Spec.Fits sp; unfold Spec.Fits; omega)
    (by show Spec.Fits (Spec.sigBlob (b! "ecdsa-sha2-nistp256") (mpBody (K.sign hash).1)
          (mpBody (K.sign hash).2))
        unfold Spec.Fits; omega)
  exact splitAtP_of_fills (serTy_fills 31 this buf)

/-- the two keys of a direction -/
def cipherOf (K : Crypto) (shared hash : Bytes) (dir : Direction) (counter : UInt64) : ChaCha where
  keyLength := Spec.keyBlock K.hash (Spec.str (mpBody shared)) hash
    (Spec.keyLetter .encryption dir) hash 1
  keyData := Spec.keyBlock K.hash (Spec.str (mpBody shared)) hash
    (Spec.keyLetter .encryption dir) hash 0
  counter
  uses := []

/-- the session the server sets up -/
def sessionOf (K : Crypto) (shared hash : Bytes) : HostClient where
  receiveCipher := cipherOf K shared hash .clientToServer 3
  sendCipher := cipherOf K shared hash .serverToClient 3
  sessionIdentifier := hash

/-- the exchange hash, from the encoding of the first four items -/
def exchangeHash (K : Crypto) (h secret clientPublic : Bytes) : Bytes :=
  K.hash (h ++ Spec.str (Spec.hostKey (Host.publicKey K)) ++ Spec.str clientPublic ++
    Spec.str (K.dhPublic secret) ++ Spec.str (mpBody (K.dhShared secret clientPublic)))

theorem Host.sendReply_cases (K : Crypto) {h secret cp pktBuf : Bytes} {s : IoSt}
    (hcp : cp.length = 32) (hb : 400 ≤ pktBuf.length) (hb2 : pktBuf.length < 4294967296) :
    ∃ k1 k2 raw1 raw2,
      Spec.PacketOf .b8 true (replyPayload K (K.dhPublic secret) (exchangeHash K h secret cp))
        (s.rng.bytes k1) raw1 ∧
      Spec.PacketOf .b8 true [21] ((s.rng.skip k1).bytes k2) raw2 ∧
      Spec.LeastPad .b8 true
        (replyPayload K (K.dhPublic secret) (exchangeHash K h secret cp)).length k1 ∧
      Spec.LeastPad .b8 true 1 k2 ∧
      ((∃ w b, Host.sendReply K h secret cp pktBuf s =
          (ok (sessionOf K (K.dhShared secret cp) (exchangeHash K h secret cp), b),
            { s with out := s.out ++ (raw1 ++ raw2), wcap := w,
                     rng := (s.rng.skip k1).skip k2 }) ∧ b.length = pktBuf.length ∧
          (s.wcap = none → w = none)) ∨
       (s.wcap ≠ none ∧ ∃ s' n, Host.sendReply K h secret cp pktBuf s = (err .write, s') ∧
          s'.inp = s.inp ∧ s'.log = s.log ∧ s'.out = s.out ++ (raw1 ++ raw2).take n)) := by
  have hsp := K.dhPublic_length secret
  have hsh := K.dhShared_length secret cp
  have hrl := replyPayload_length K (exchangeHash K h secret cp) hsp
  have hkl := hostKey_length K
  have hm := KeyMaterial.new_eq (ε := HandshakeError) (exchangeHash K h secret cp) hsh
  have hh := KeyMaterial.new_holds hsh hm
  generalize hbuf : Spec.hostKey (Host.publicKey K) ++
    pktBuf.drop (Spec.hostKey (Host.publicKey K)).length = buf
  have hbl : buf.length = pktBuf.length := by rw [← hbuf]; len
  obtain ⟨k1, p1, raw1, hk1, hw1, hpo1, _, hir1, _, hl1⟩ :=
    wrap_message (buf := buf) (reply_writes K (exchangeHash K h secret cp) hsp) s.rng
      (by omega) (by omega)
  obtain ⟨k2, p2, raw2, hk2, hw2, hpo2, har2, _, _, hl2⟩ :=
    wrap_message (m := .newKeys) (e := [21]) (buf := p1.data)
      (writes_of_WF (m := .newKeys) trivial) (s.rng.skip k1)
      (by simp; omega) (by omega)
  refine ⟨k1, k2, raw1, raw2, hpo1, hpo2, hk1, hk2, ?_⟩
  have hpre : Host.sendReply K h secret cp pktBuf s =
      ((M.writeAll raw1).mapErr (fun _ => HandshakeError.write) >>= fun _ => do
        let pkt ← M.withRng (Packet.wrap p1.data .b8 true (Message.write .newKeys))
        let raw ← M.lift pkt.asRaw
        (M.writeAll raw).mapErr (fun _ => .write)
        pure (sessionOf K (K.dhShared secret cp) (exchangeHash K h secret cp), pkt.data))
      { s with rng := s.rng.skip k1 } := by
    have hw : (M.withRng (Packet.wrap buf .b8 true (Message.write
          (.kexEcdhReply (Host.reply K (K.dhPublic secret) (exchangeHash K h secret cp))))) :
          M HandshakeError Packet) s = (ok p1, { s with rng := s.rng.skip k1 }) := by
      simp only [M.withRng, hw1]
    rw [Host.sendReply]
    simp only [KexDigest.hostKey_eq h pktBuf (k := Host.publicKey K)
      (by unfold Spec.Fits; omega) (by omega), M.lift_ok_bind, KexDigest.clientEphermalKey,
      KexDigest.f_eq _ (show Spec.Fits cp by unfold Spec.Fits; omega),
      KexDigest.serverEphermalKey,
      KexDigest.f_eq _ (show Spec.Fits (K.dhPublic secret) by unfold Spec.Fits; omega),
      KexDigest.secret, KexDigest.g_eq _ (show (K.dhShared secret cp).length ≤ 123 by omega),
      ok_bind, hbuf]
    rw [show K.hash (h ++ Spec.str (Spec.hostKey (Host.publicKey K)) ++ Spec.str cp ++
      Spec.str (K.dhPublic secret) ++ Spec.str (mpBody (K.dhShared secret cp))) =
      exchangeHash K h secret cp from rfl, hm, M.lift_ok_bind, M.bind_ok hw, hir1, M.lift_ok_bind]
    simp only [ChaCha.fromKeyMaterial_eq K hh, M.lift_ok_bind]
    rfl
  rcases M.writeAll_cases raw1 { s with rng := s.rng.skip k1 } with ⟨w1, e1, n1⟩ | ⟨c1, n, e1⟩
  · have hw : (M.withRng (Packet.wrap p1.data .b8 true (Message.write .newKeys)) :
        M HandshakeError Packet)
        { s with out := s.out ++ raw1, wcap := w1, rng := s.rng.skip k1 } =
        (ok p2, { s with out := s.out ++ raw1, wcap := w1, rng := (s.rng.skip k1).skip k2 }) := by
      simp only [M.withRng, hw2]
    rcases M.writeAll_cases raw2
        { s with out := s.out ++ raw1, wcap := w1, rng := (s.rng.skip k1).skip k2 } with
      ⟨w2, e2, n2⟩ | ⟨c2, n, e2⟩
    · left
      refine ⟨w2, p2.data, ?_, by omega, fun h => n2 (n1 h)⟩
      rw [hpre, M.bind_ok (by rw [M.mapErr_run, e1]; rfl), M.bind_ok hw, har2, M.lift_ok_bind,
        M.bind_ok (by rw [M.mapErr_run, e2]; rfl)]
      simp
    · right
      refine ⟨fun h => c2 (n1 h), { s with
        out := s.out ++ raw1 ++ raw2.take n, wcap := some 0, rng := (s.rng.skip k1).skip k2 },
        raw1.length + n, ?_, rfl, rfl, ?_⟩
      · rw [hpre, M.bind_ok (by rw [M.mapErr_run, e1]; rfl), M.bind_ok hw, har2, M.lift_ok_bind,
          M.bind_err (by rw [M.mapErr_run, e2]; rfl)]
      · show _ ++ _ = _
        rw [List.take_length_add_append]
        simp
  · right
    refine ⟨c1, { s with
      out := s.out ++ raw1.take n, wcap := some 0, rng := s.rng.skip k1 },
      min n raw1.length, ?_, rfl, rfl, ?_⟩
    · rw [hpre, M.bind_err (by rw [M.mapErr_run, e1]; rfl)]
    · show _ ++ _ = _
      rw [List.take_append_of_le_length (by omega), ← List.take_take, List.take_length]

/-! ### the client's NEWKEYS -/

theorem Host.receiveNewKeys_cases {pktBuf : Bytes} {s : IoSt} (h5 : 5 ≤ pktBuf.length)
    (hb : pktBuf.length < 4294967296) :
    (∃ e i, Host.receiveNewKeys pktBuf s = (err (.packetParse e), { s with inp := i }) ∧
      ¬ Spec.LengthInWindow pktBuf.length s.inp ∧
      (∀ raw pay rest, s.inp = raw ++ rest → Spec.Framed .b8 true pay raw →
        pktBuf.length < raw.length) ∧ Spec.Unframed .b8 true pktBuf.length s.inp e i) ∨
    (∃ n rest, s.inp = Spec.u32 n ++ rest ∧ n < 4294967296 ∧ 8 ≤ n ∧ n ≤ pktBuf.length ∧
      pktBuf.length < 4 + n ∧
      Host.receiveNewKeys pktBuf s = (R.panic, { s with inp := rest })) ∨
    (∃ raw pay rest, s.inp = raw ++ rest ∧ Spec.Framed .b8 true pay raw ∧
      raw.length ≤ pktBuf.length ∧
      ((Message.parse pay = ok .newKeys ∧
          Host.receiveNewKeys pktBuf s = (ok (), { s with inp := rest })) ∨
       ((∃ m, Message.parse pay = ok m ∧ m ≠ .newKeys) ∧
          Host.receiveNewKeys pktBuf s = (err .expectedKeys, { s with inp := rest })) ∨
       ((∃ e, Message.parse pay = err e) ∧
          Host.receiveNewKeys pktBuf s = (R.panic, { s with inp := rest })))) := by
  rcases PacketIo.parse_outcome (mode := true) (bs := .b8) (s := s) h5 with
    ⟨e, i, e3⟩ | ⟨n, rest, hi, hn, h8, hl1, hl2, e3⟩ |
    ⟨p, pay, raw, rest, hi, hf, hfit, e3, hpp, hpl⟩
  · left
    obtain ⟨_, hu, hi⟩ := (C17_errors pktBuf true .b8 s _ e (by omega)).mp e3
    refine ⟨e, i, ?_, ?_, ?_, by rw [show i = _ from congrArg IoSt.inp hi]; exact hu⟩
    · rw [Host.receiveNewKeys, M.bind_err (by rw [M.mapErr_run, e3]; rfl)]
    · exact PacketIo.parse_not_window h5 hb (by rw [e3]; simp)
    · intro raw pay rest hi hf
      refine Nat.lt_of_not_le fun hfit => ?_
      obtain ⟨p, e4, _⟩ := PacketIo.parse_framed (buf := pktBuf) (s := s) (rest := rest) hf hfit hi
      rw [e3] at e4
      simp at e4
  · right; left
    refine ⟨n, rest, hi, hn, h8, hl1, hl2, ?_⟩
    rw [Host.receiveNewKeys, M.bind_panic (by rw [M.mapErr_run, e3]; rfl)]
  · right; right
    refine ⟨raw, pay, rest, hi, hf, hfit, ?_⟩
    have e4 : Host.receiveNewKeys pktBuf s = (show M HandshakeError Unit from do
        let msg ← M.lift (Message.parse pay).unwrap
        M.lift (msg.intoNewKeys.okOr .expectedKeys)) { s with inp := rest } := by
      rw [Host.receiveNewKeys, M.bind_ok (by rw [M.mapErr_run, e3]; rfl), hpp, M.lift_ok_bind]
    cases hm : Message.parse pay with
    | panic => exact absurd hm Message.parse_ne_panic
    | err e => exact .inr (.inr ⟨⟨e, rfl⟩, by rw [e4, hm]; rfl⟩)
    | ok m =>
      rcases Message.intoNewKeys_cases m with ⟨rfl, hk⟩ | ⟨hk1, hk⟩
      · left
        refine ⟨rfl, ?_⟩
        rw [e4, hm]
        simp only [R.unwrap, M.lift_ok_bind, hk]
        rfl
      · right; left
        refine ⟨⟨m, rfl, hk1⟩, ?_⟩
        rw [e4, hm]
        simp only [R.unwrap, M.lift_ok_bind, hk]
        rfl

end Nora
