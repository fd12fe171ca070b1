import Verif.Lemmas.Host
import Verif.Spec.Handshake
/-
The outcomes of the handshake.
-/
namespace Nora
open R

/-- the server has read the client's KEXINIT -/
structure Reached (N : Nat) (s : IoSt) (id pay : Bytes) (o : Kex.KexInit) (r : Bytes) : Prop where
  next : ∃ r0, Ident.parseStream s.inp = ok (id, r0) ∧ Spec.NextPacket N r0 pay r
  kex : Message.parse pay = ok (.kexInit o)

theorem Reached.unique {N N' : Nat} {s : IoSt} {id id' pay pay' r r' : Bytes} {o o' : Kex.KexInit}
    (h : Reached N s id pay o r) (h' : Reached N' s id' pay' o' r') :
    id = id' ∧ pay = pay' ∧ o = o' ∧ r = r' := by
  obtain ⟨⟨r0, e, hn⟩, hk⟩ := h
  obtain ⟨⟨r0', e', hn'⟩, hk'⟩ := h'
  rw [e, R.ok.injEq, Prod.mk.injEq] at e'
  obtain ⟨rfl, rfl⟩ := e'
  obtain ⟨rfl, rfl⟩ := hn.unique hn'
  rw [hk] at hk'
  simp only [R.ok.injEq, Message.kexInit.injEq] at hk'
  exact ⟨rfl, rfl, hk', rfl⟩

/-- the exchange hash of the handshake -/
def theHash (K : Crypto) (ident id pay secret cp : Bytes) : Bytes :=
  exchangeHash K (Spec.str id ++ Spec.str ident ++ Spec.str pay ++ Spec.str kexPayload) secret cp

/-- the server has read everything it needs for its reply, and `raw1` and `raw2` are its reply and
its NEWKEYS -/
structure Replied (K : Crypto) (N : Nat) (ident : Bytes) (s : IoSt)
    (id pay secret cp r2 raw1 raw2 : Bytes) : Prop where
  reached : ∃ o r pay2, Reached N s id pay o r ∧ Negotiated o ∧ Spec.NextPacket N r pay2 r2 ∧
    GoodKey pay2 cp
  random : ∃ k, Spec.LeastPad .b8 true kexPayload.length k ∧ secret = (s.rng.skip k).bytes 32
  reply : ∃ pad, Spec.PacketOf .b8 true
    (replyPayload K (K.dhPublic secret) (theHash K ident id pay secret cp)) pad raw1
  newKeys : ∃ pad, Spec.PacketOf .b8 true [21] pad raw2
  /-- where the secret and the padding come from -/
  sends : ∃ k0 k1 k2, Spec.LeastPad .b8 true kexPayload.length k0 ∧ secret = (s.rng.skip k0).bytes 32 ∧
    (let reply := replyPayload K (K.dhPublic secret) (theHash K ident id pay secret cp)
     Spec.LeastPad .b8 true reply.length k1 ∧
     Spec.PacketOf .b8 true reply (((s.rng.skip k0).skip 32).bytes k1) raw1) ∧
    Spec.LeastPad .b8 true 1 k2 ∧
    Spec.PacketOf .b8 true [21] ((((s.rng.skip k0).skip 32).skip k1).bytes k2) raw2

/-- the possible outcomes, where `T` is the first flight of the server -/
inductive Outcome (K : Crypto) (N : Nat) (ident T : Bytes) (s : IoSt) :
    R HandshakeError HostClient → IoSt → Prop
  | helloWrite (n : Nat) (s' : IoSt) : s.wcap ≠ none → s'.inp = s.inp →
      s'.out = s.out ++ T.take n → Outcome K N ident T s (err .write) s'
  | early (e : HandshakeError) (s' : IoSt) : e ≠ .unsupportedAlgorithms → s'.out = s.out ++ T →
      (∀ id r, Ident.parseStream s.inp = ok (id, r) → ¬ Spec.LengthInWindow N r) →
      (∀ id pay o r, ¬ Reached N s id pay o r) → Early N s.inp e → Outcome K N ident T s (err e) s'
  | window0 (id r : Bytes) (s' : IoSt) : Ident.parseStream s.inp = ok (id, r) →
      Spec.LengthInWindow N r → s'.out = s.out ++ T → Outcome K N ident T s R.panic s'
  | unsupported (id pay o r) (s' : IoSt) : Reached N s id pay o r → ¬ Negotiated o →
      s'.out = s.out ++ T → s'.inp = r → Outcome K N ident T s (err .unsupportedAlgorithms) s'
  | noKey (id pay o r) (e : PacketParseError) (s' : IoSt) : Reached N s id pay o r →
      Negotiated o → s'.out = s.out ++ T → ¬ Spec.LengthInWindow N r →
      (∀ pay2 r2, ¬ Spec.NextPacket N r pay2 r2) → Spec.Unframed .b8 true N r e s'.inp →
      Outcome K N ident T s (err (.packetParse e)) s'
  | window1 (id pay o r) (s' : IoSt) : Reached N s id pay o r → Negotiated o →
      s'.out = s.out ++ T → Spec.LengthInWindow N r → Outcome K N ident T s R.panic s'
  | badKey (id pay o r pay2 r2) (s' : IoSt) : Reached N s id pay o r → Negotiated o →
      s'.out = s.out ++ T → Spec.NextPacket N r pay2 r2 → (∀ cp, ¬ GoodKey pay2 cp) →
      Outcome K N ident T s R.panic s'
  | replyWrite (id pay secret cp r2 raw1 raw2 n) (s' : IoSt) :
      Replied K N ident s id pay secret cp r2 raw1 raw2 → s.wcap ≠ none →
      s'.out = s.out ++ T ++ (raw1 ++ raw2).take n → Outcome K N ident T s (err .write) s'
  | noNewKeys (id pay secret cp r2 raw1 raw2) (e : PacketParseError) (s' : IoSt) :
      Replied K N ident s id pay secret cp r2 raw1 raw2 → s'.out = s.out ++ T ++ (raw1 ++ raw2) →
      ¬ Spec.LengthInWindow N r2 → (∀ pay3 r3, ¬ Spec.NextPacket N r2 pay3 r3) →
      Spec.Unframed .b8 true N r2 e s'.inp →
      Outcome K N ident T s (err (.packetParse e)) s'
  | window2 (id pay secret cp r2 raw1 raw2) (s' : IoSt) :
      Replied K N ident s id pay secret cp r2 raw1 raw2 → s'.out = s.out ++ T ++ (raw1 ++ raw2) →
      Spec.LengthInWindow N r2 → Outcome K N ident T s R.panic s'
  | badNewKeys (id pay secret cp r2 raw1 raw2 pay3 r3 e) (s' : IoSt) :
      Replied K N ident s id pay secret cp r2 raw1 raw2 → s'.out = s.out ++ T ++ (raw1 ++ raw2) →
      Spec.NextPacket N r2 pay3 r3 → Message.parse pay3 = err e → Outcome K N ident T s R.panic s'
  | otherMessage (id pay secret cp r2 raw1 raw2 pay3 r3 m) (s' : IoSt) :
      Replied K N ident s id pay secret cp r2 raw1 raw2 → s'.out = s.out ++ T ++ (raw1 ++ raw2) →
      Spec.NextPacket N r2 pay3 r3 → Message.parse pay3 = ok m → m ≠ .newKeys →
      Outcome K N ident T s (err .expectedKeys) s'
  | done (id pay secret cp r2 raw1 raw2 pay3 r3) (s' : IoSt) :
      Replied K N ident s id pay secret cp r2 raw1 raw2 → s'.out = s.out ++ T ++ (raw1 ++ raw2) →
      Spec.NextPacket N r2 pay3 r3 → Message.parse pay3 = ok .newKeys → s'.inp = r3 →
      Outcome K N ident T s
        (ok (sessionOf K (K.dhShared secret cp) (theHash K ident id pay secret cp))) s'

theorem Host.handshake_outcome (K : Crypto) {ident pktBuf : Bytes} {s : IoSt}
    (hid : Spec.Fits ident) (hb : 400 ≤ pktBuf.length) (hb2 : pktBuf.length < 4294967296) :
    ∃ (k0 : Nat) (raw0 : Bytes), Spec.LeastPad .b8 true kexPayload.length k0 ∧
      Spec.PacketOf .b8 true kexPayload (s.rng.bytes k0) raw0 ∧
      Outcome K pktBuf.length ident (ident ++ Spec.crlf ++ raw0) s
        (Host.handshake K ident pktBuf s).1 (Host.handshake K ident pktBuf s).2 := by
  obtain ⟨k0, p, raw0, hpo, hk0, hpp, h⟩ := Host.hello_cases ident s
  refine ⟨k0, raw0, hk0, hpo, ?_⟩
  rcases h with ⟨w, e0, hw⟩ | ⟨hw, s', n, e0, hi, _, ho⟩
  rotate_left
  · rw [Host.handshake, M.bind_err e0]
    exact .helloWrite n s' hw hi ho
  generalize hs1 : ({ s with
    out := s.out ++ (ident ++ Spec.crlf ++ raw0), wcap := w, rng := s.rng.skip k0 } : IoSt) = s1 at e0
  have hi1 : s1.inp = s.inp := by rw [← hs1]
  have ho1 : s1.out = s.out ++ (ident ++ Spec.crlf ++ raw0) := by rw [← hs1]
  have hr1 : s1.rng = s.rng.skip k0 := by rw [← hs1]
  have hw1 : s1.wcap = w := by rw [← hs1]
  rw [Host.handshake, M.bind_ok e0]
  rcases Host.receiveHello_cases (s := s1) (pktBuf := pktBuf) hid hpp (by omega) hb2 with
    ⟨e, i, e1, hne, hnw, hno, hE⟩ | ⟨id, n, rest, hp, hn, h8, hl1, hl2, e1⟩ |
    ⟨id, raw, pay, o, rest, b, hp, hf, hfit, hm, hbl, h⟩
  · rw [M.bind_err e1]
    refine .early _ _ hne ho1 (by rw [← hi1]; exact hnw) ?_ (by rw [← hi1]; exact hE)
    rintro id pay o r ⟨⟨r0, h1, raw, rfl, h3, h4⟩, h5⟩
    exact hno id raw pay o r (by rw [hi1]; exact h1) h3 h4 h5
  · rw [M.bind_panic e1]
    exact .window0 id _ _ (by rw [← hi1]; exact hp) ⟨n, rest, rfl, h8, hl1, hl2⟩ ho1
  have hR : Reached pktBuf.length s id pay o rest :=
    ⟨⟨_, by rw [← hi1]; exact hp, raw, rfl, hf, hfit⟩, hm⟩
  rcases h with ⟨hN, e1⟩ | ⟨hN, e1⟩
  rotate_left
  · rw [M.bind_err e1]
    exact .unsupported id pay o rest _ hR hN ho1 rfl
  rw [M.bind_ok e1]
  simp only
  rw [← hbl] at hb hb2 hR ⊢
  rcases Host.receiveKey_cases (pktBuf := b) (s := { s1 with inp := rest }) (by omega) hb2 with
    ⟨e, i, e2, hnw, hno, hE⟩ | ⟨n, r2, hi2, hn, h8, hl1, hl2, e2⟩ | ⟨raw2, pay2, r2, hi2, hf2, hfit2, h⟩
  · rw [M.bind_err e2]
    refine .noKey id pay o rest _ _ hR hN ho1 hnw ?_ hE
    rintro pay2 r2 ⟨raw2, h1, h2, h3⟩
    have := hno raw2 pay2 r2 h1 h2
    omega
  · rw [M.bind_panic e2]
    exact .window1 id pay o rest _ hR hN ho1 ⟨n, r2, hi2, h8, hl1, hl2⟩
  have hn2 : Spec.NextPacket b.length rest pay2 r2 := ⟨raw2, hi2, hf2, hfit2⟩
  rcases h with ⟨cp, b2, hg, hbl2, e2⟩ | ⟨hg, e2⟩
  rotate_left
  · rw [M.bind_panic e2]
    exact .badKey id pay o rest pay2 r2 _ hR hN ho1 hn2 hg
  rw [M.bind_ok e2]
  simp only
  rw [← hbl2] at hb hb2 hR hn2 ⊢
  obtain ⟨k1, k2, raw1, raw2, hpo1, hpo2, hk1, hk2, h⟩ := Host.sendReply_cases K
    (h := Spec.str id ++ Spec.str ident ++ Spec.str pay ++ Spec.str kexPayload)
    (secret := s1.rng.bytes 32) (cp := cp) (pktBuf := b2)
    (s := { s1 with inp := r2, rng := s1.rng.skip 32 }) hg.2 hb hb2
  have hD : Replied K b2.length ident s id pay (s1.rng.bytes 32) cp r2 raw1 raw2 :=
    ⟨⟨o, rest, pay2, hR, hN, hn2, hg⟩, ⟨k0, hk0, by rw [hr1]⟩, ⟨_, hpo1⟩, ⟨_, hpo2⟩,
      ⟨k0, k1, k2, hk0, by rw [hr1], ⟨hk1, by rw [← hr1]; exact hpo1⟩, hk2, by rw [← hr1]; exact hpo2⟩⟩
  rcases h with ⟨w2, b3, e3, hbl3, _⟩ | ⟨hw3, s', n, e3, _, _, ho3⟩
  rotate_left
  · rw [M.bind_err e3]
    refine .replyWrite id pay _ cp r2 raw1 raw2 n _ hD (fun h => hw3 ?_) ?_
    · rw [show ({ s1 with inp := r2, rng := s1.rng.skip 32 } : IoSt).wcap = w from hw1]
      exact hw h
    · rw [ho3, ← ho1]
  rw [M.bind_ok e3]
  simp only
  rw [← hbl3] at hb hb2 hD ⊢
  have ho2 : ∀ x, s1.out = x → s1.out ++ (raw1 ++ raw2) = x ++ (raw1 ++ raw2) := by
    intro x h; rw [h]
  rcases Host.receiveNewKeys_cases (pktBuf := b3) (s := { s1 with
      inp := r2, out := s1.out ++ (raw1 ++ raw2), wcap := w2,
      rng := ((s1.rng.skip 32).skip k1).skip k2 }) (by omega) hb2 with
    ⟨e, i, e4, hnw, hno, hE⟩ | ⟨n, r3, hi3, hn, h8, hl1, hl2, e4⟩ | ⟨raw3, pay3, r3, hi3, hf3, hfit3, h⟩
  · rw [M.bind_err e4]
    refine .noNewKeys id pay _ cp r2 raw1 raw2 _ _ hD (ho2 _ ho1) hnw ?_ hE
    rintro pay3 r3 ⟨raw3, h1, h2, h3⟩
    have := hno raw3 pay3 r3 h1 h2
    omega
  · rw [M.bind_panic e4]
    exact .window2 id pay _ cp r2 raw1 raw2 _ hD (ho2 _ ho1) ⟨n, r3, hi3, h8, hl1, hl2⟩
  have hn3 : Spec.NextPacket b3.length r2 pay3 r3 := ⟨raw3, hi3, hf3, hfit3⟩
  rcases h with ⟨hm3, e4⟩ | ⟨⟨m, hm3, hne⟩, e4⟩ | ⟨⟨e, hm3⟩, e4⟩
  · rw [M.bind_ok e4]
    exact .done id pay _ cp r2 raw1 raw2 pay3 r3 _ hD (ho2 _ ho1) hn3 hm3 rfl
  · rw [M.bind_err e4]
    exact .otherMessage id pay _ cp r2 raw1 raw2 pay3 r3 m _ hD (ho2 _ ho1) hn3 hm3 hne
  · rw [M.bind_panic e4]
    exact .badNewKeys id pay _ cp r2 raw1 raw2 pay3 r3 e _ hD (ho2 _ ho1) hn3 hm3

/-- A successful handshake, with the random numbers it takes: in this order the padding of the KEXINIT,
the secret, the padding of the reply and the padding of NEWKEYS. -/
theorem Host.handshake_exact (K : Crypto) {ident pktBuf : Bytes} {s s' : IoSt} {c : HostClient}
    (hid : Spec.Fits ident) (hb : 400 ≤ pktBuf.length) (hb2 : pktBuf.length < 4294967296)
    (hok : Host.handshake K ident pktBuf s = (ok c, s')) :
    ∃ k0 k1 k2 raw0 raw1 raw2 id pay cp,
      Spec.LeastPad .b8 true kexPayload.length k0 ∧
      Spec.PacketOf .b8 true kexPayload (s.rng.bytes k0) raw0 ∧
      (let secret := (s.rng.skip k0).bytes 32
       let r1 := (s.rng.skip k0).skip 32
       let hash := theHash K ident id pay secret cp
       let reply := replyPayload K (K.dhPublic secret) hash
       Spec.LeastPad .b8 true reply.length k1 ∧
       Spec.PacketOf .b8 true reply (r1.bytes k1) raw1 ∧
       Spec.LeastPad .b8 true 1 k2 ∧
       Spec.PacketOf .b8 true [21] ((r1.skip k1).bytes k2) raw2 ∧
       c = sessionOf K (K.dhShared secret cp) hash ∧
       s'.out = s.out ++ (ident ++ Spec.crlf ++ raw0) ++ (raw1 ++ raw2) ∧
       s'.rng = (r1.skip k1).skip k2) := by
  obtain ⟨k0, p, raw0, hpo, hk0, hpp, h⟩ := Host.hello_cases ident s
  rcases h with ⟨w, e0, hw⟩ | ⟨hw, s1, n, e0, hi, _, ho⟩
  rotate_left
  · rw [Host.handshake, M.bind_err e0] at hok
    cases hok
  generalize hs1 : ({ s with
    out := s.out ++ (ident ++ Spec.crlf ++ raw0), wcap := w, rng := s.rng.skip k0 } : IoSt) = s1 at e0
  have ho1 : s1.out = s.out ++ (ident ++ Spec.crlf ++ raw0) := by rw [← hs1]
  have hr1 : s1.rng = s.rng.skip k0 := by rw [← hs1]
  rw [Host.handshake, M.bind_ok e0] at hok
  rcases Host.receiveHello_cases (s := s1) (pktBuf := pktBuf) hid hpp (by omega) hb2 with
    ⟨e, i, e1, _⟩ | ⟨id, n, rest, _, _, _, _, _, e1⟩ | ⟨id, raw, pay, o, rest, b, _, _, _, _, hbl, h⟩
  · rw [M.bind_err e1] at hok; cases hok
  · rw [M.bind_panic e1] at hok; cases hok
  rcases h with ⟨_, e1⟩ | ⟨_, e1⟩
  rotate_left
  · rw [M.bind_err e1] at hok; cases hok
  rw [M.bind_ok e1] at hok
  simp only at hok
  rw [← hbl] at hb hb2
  rcases Host.receiveKey_cases (pktBuf := b) (s := { s1 with inp := rest }) (by omega) hb2 with
    ⟨e, i, e2, _⟩ | ⟨n, r2, _, _, _, _, _, e2⟩ | ⟨raw2, pay2, r2, _, _, _, h⟩
  · rw [M.bind_err e2] at hok; cases hok
  · rw [M.bind_panic e2] at hok; cases hok
  rcases h with ⟨cp, b2, hg, hbl2, e2⟩ | ⟨hg, e2⟩
  rotate_left
  · rw [M.bind_panic e2] at hok; cases hok
  rw [M.bind_ok e2] at hok
  simp only at hok
  rw [← hbl2] at hb hb2
  obtain ⟨k1, k2, raw1, raw2, hpo1, hpo2, hk1, hk2, h⟩ := Host.sendReply_cases K
    (h := Spec.str id ++ Spec.str ident ++ Spec.str pay ++ Spec.str kexPayload)
    (secret := s1.rng.bytes 32) (cp := cp) (pktBuf := b2)
    (s := { s1 with inp := r2, rng := s1.rng.skip 32 }) hg.2 hb hb2
  rcases h with ⟨w2, b3, e3, hbl3, _⟩ | ⟨hw3, s2, n, e3, _, _, ho3⟩
  rotate_left
  · rw [M.bind_err e3] at hok; cases hok
  rw [M.bind_ok e3] at hok
  simp only at hok
  rw [← hbl3] at hb hb2
  rcases Host.receiveNewKeys_cases (pktBuf := b3) (s := { s1 with
      inp := r2, out := s1.out ++ (raw1 ++ raw2), wcap := w2,
      rng := ((s1.rng.skip 32).skip k1).skip k2 }) (by omega) hb2 with
    ⟨e, i, e4, _⟩ | ⟨n, r3, _, _, _, _, _, e4⟩ | ⟨raw3, pay3, r3, _, _, _, h⟩
  · rw [M.bind_err e4] at hok; cases hok
  · rw [M.bind_panic e4] at hok; cases hok
  rcases h with ⟨_, e4⟩ | ⟨_, e4⟩ | ⟨_, e4⟩
  · rw [M.bind_ok e4] at hok
    have h1 : ok (sessionOf K (K.dhShared (s1.rng.bytes 32) cp)
        (theHash K ident id pay (s1.rng.bytes 32) cp)) = (ok c : R HandshakeError HostClient) :=
      congrArg Prod.fst hok
    have h2 : _ = s' := congrArg Prod.snd hok
    rw [hr1] at h1 h2 hpo1 hpo2 hk1
    refine ⟨k0, k1, k2, raw0, raw1, raw2, id, pay, cp, hk0, hpo, hk1, hpo1, hk2, hpo2,
      (R.ok.inj h1).symm, ?_, ?_⟩
    · rw [← ho1, ← h2]; rfl
    · rw [← h2]; rfl
  · rw [M.bind_err e4] at hok; cases hok
  · rw [M.bind_panic e4] at hok; cases hok

/-! ### which outcome it is -/

theorem GoodKey.unique {pay cp cp' : Bytes} (h : GoodKey pay cp) (h' : GoodKey pay cp') :
    cp = cp' := by
  have h1 := h.1
  rw [h'.1] at h1
  simp only [R.ok.injEq, Message.kexEcdhInit.injEq, Kex.EcdhInit.mk.injEq] at h1
  exact h1.symm

section
variable {K : Crypto} {N : Nat} {ident T : Bytes} {s s' : IoSt} {res : R HandshakeError HostClient}
  {id pay r : Bytes} {o : Kex.KexInit}

theorem Outcome.reached (ho : Outcome K N ident T s res s') (hw : s.wcap = none)
    (hN : N < 4294967296) (hR : Reached N s id pay o r) :
    (¬ Negotiated o ∧ res = err .unsupportedAlgorithms ∧ s'.inp = r ∧ s'.out = s.out ++ T) ∨
    (Negotiated o ∧ res ≠ err .unsupportedAlgorithms) := by
  cases ho with
  | helloWrite _ _ h => exact absurd hw h
  | early _ _ _ _ _ h => exact absurd hR (h _ _ _ _)
  | window0 id' r' _ h1 h2 =>
    obtain ⟨⟨r0, e, hn⟩, _⟩ := hR
    rw [h1, R.ok.injEq, Prod.mk.injEq] at e
    rw [e.2] at h2
    exact absurd h2 (hn.not_window hN)
  | unsupported id' pay' o' r' _ h hNeg hout hinp =>
    obtain ⟨_, _, rfl, rfl⟩ := hR.unique h
    exact .inl ⟨hNeg, rfl, hinp, hout⟩
  | noKey id' pay' o' r' _ _ h hNeg =>
    obtain ⟨_, _, rfl, rfl⟩ := hR.unique h
    exact .inr ⟨hNeg, by simp⟩
  | window1 id' pay' o' r' _ h hNeg =>
    obtain ⟨_, _, rfl, rfl⟩ := hR.unique h
    exact .inr ⟨hNeg, by simp⟩
  | badKey id' pay' o' r' _ _ _ h hNeg =>
    obtain ⟨_, _, rfl, rfl⟩ := hR.unique h
    exact .inr ⟨hNeg, by simp⟩
  | replyWrite _ _ _ _ _ _ _ _ _ hD =>
    obtain ⟨o', r', pay2, h, hNeg, _⟩ := hD.reached
    obtain ⟨_, _, rfl, rfl⟩ := hR.unique h
    exact .inr ⟨hNeg, by simp⟩
  | noNewKeys _ _ _ _ _ _ _ _ _ hD =>
    obtain ⟨o', r', pay2, h, hNeg, _⟩ := hD.reached
    obtain ⟨_, _, rfl, rfl⟩ := hR.unique h
    exact .inr ⟨hNeg, by simp⟩
  | window2 _ _ _ _ _ _ _ _ hD =>
    obtain ⟨o', r', pay2, h, hNeg, _⟩ := hD.reached
    obtain ⟨_, _, rfl, rfl⟩ := hR.unique h
    exact .inr ⟨hNeg, by simp⟩
  | badNewKeys _ _ _ _ _ _ _ _ _ _ _ hD =>
    obtain ⟨o', r', pay2, h, hNeg, _⟩ := hD.reached
    obtain ⟨_, _, rfl, rfl⟩ := hR.unique h
    exact .inr ⟨hNeg, by simp⟩
  | otherMessage _ _ _ _ _ _ _ _ _ _ _ hD =>
    obtain ⟨o', r', pay2, h, hNeg, _⟩ := hD.reached
    obtain ⟨_, _, rfl, rfl⟩ := hR.unique h
    exact .inr ⟨hNeg, by simp⟩
  | done _ _ _ _ _ _ _ _ _ _ hD =>
    obtain ⟨o', r', pay2, h, hNeg, _⟩ := hD.reached
    obtain ⟨_, _, rfl, rfl⟩ := hR.unique h
    exact .inr ⟨hNeg, by simp⟩

theorem Replied.unique {id' pay' secret cp r2 raw1 raw2 : Bytes}
    (hD : Replied K N ident s id' pay' secret cp r2 raw1 raw2)
    (hR : Reached N s id pay o r) : id' = id ∧ pay' = pay ∧
      ∃ pay2, Spec.NextPacket N r pay2 r2 ∧ GoodKey pay2 cp := by
  obtain ⟨o', r', pay2, h, hNeg, hn, hg⟩ := hD.reached
  obtain ⟨rfl, rfl, rfl, rfl⟩ := hR.unique h
  exact ⟨rfl, rfl, pay2, hn, hg⟩

theorem Outcome.window (ho : Outcome K N ident T s res s') (hw : s.wcap = none)
    (hN : N < 4294967296) (hR : Reached N s id pay o r) (hNeg : Negotiated o)
    (hwin : Spec.LengthInWindow N r) : res = R.panic := by
  have hno : ∀ {pay2 r2}, ¬ Spec.NextPacket N r pay2 r2 := fun h => h.not_window hN hwin
  cases ho with
  | helloWrite _ _ h => exact absurd hw h
  | early _ _ _ _ _ h => exact absurd hR (h _ _ _ _)
  | window0 => rfl
  | unsupported id' pay' o' r' _ h hn =>
    obtain ⟨_, _, rfl, rfl⟩ := hR.unique h
    exact absurd hNeg hn
  | noKey id' pay' o' r' e _ h _ _ hx =>
    obtain ⟨_, _, rfl, rfl⟩ := hR.unique h
    exact absurd hwin hx
  | window1 => rfl
  | badKey => rfl
  | replyWrite _ _ _ _ _ _ _ _ _ hD =>
    obtain ⟨_, _, pay2, h, _⟩ := hD.unique hR
    exact absurd h hno
  | noNewKeys _ _ _ _ _ _ _ _ _ hD =>
    obtain ⟨_, _, pay2, h, _⟩ := hD.unique hR
    exact absurd h hno
  | window2 => rfl
  | badNewKeys => rfl
  | otherMessage _ _ _ _ _ _ _ _ _ _ _ hD =>
    obtain ⟨_, _, pay2, h, _⟩ := hD.unique hR
    exact absurd h hno
  | done _ _ _ _ _ _ _ _ _ _ hD =>
    obtain ⟨_, _, pay2, h, _⟩ := hD.unique hR
    exact absurd h hno

theorem Outcome.bad_key (ho : Outcome K N ident T s res s') (hw : s.wcap = none)
    (hR : Reached N s id pay o r) (hNeg : Negotiated o) {pay2 r2 : Bytes}
    (hn : Spec.NextPacket N r pay2 r2) (hg : ∀ cp, ¬ GoodKey pay2 cp) : res = R.panic := by
  have hno : ∀ {pay' r2' cp}, Spec.NextPacket N r pay' r2' → ¬ GoodKey pay' cp := by
    intro pay' r2' cp h
    rw [(h.unique hn).1]
    exact hg cp
  cases ho with
  | helloWrite _ _ h => exact absurd hw h
  | early _ _ _ _ _ h => exact absurd hR (h _ _ _ _)
  | window0 => rfl
  | unsupported id' pay' o' r' _ h hn =>
    obtain ⟨_, _, rfl, rfl⟩ := hR.unique h
    exact absurd hNeg hn
  | noKey id' pay' o' r' e _ h _ _ _ hx =>
    obtain ⟨_, _, rfl, rfl⟩ := hR.unique h
    exact absurd hn (hx _ _)
  | window1 => rfl
  | badKey => rfl
  | replyWrite _ _ _ _ _ _ _ _ _ hD =>
    obtain ⟨_, _, pay2, h, h'⟩ := hD.unique hR
    exact absurd h' (hno h)
  | noNewKeys _ _ _ _ _ _ _ _ _ hD =>
    obtain ⟨_, _, pay2, h, h'⟩ := hD.unique hR
    exact absurd h' (hno h)
  | window2 => rfl
  | badNewKeys => rfl
  | otherMessage _ _ _ _ _ _ _ _ _ _ _ hD =>
    obtain ⟨_, _, pay2, h, h'⟩ := hD.unique hR
    exact absurd h' (hno h)
  | done _ _ _ _ _ _ _ _ _ _ hD =>
    obtain ⟨_, _, pay2, h, h'⟩ := hD.unique hR
    exact absurd h' (hno h)

theorem Outcome.keyed (ho : Outcome K N ident T s res s') (hw : s.wcap = none)
    (hN : N < 4294967296) (hR : Reached N s id pay o r) (hNeg : Negotiated o) {pay2 r2 cp : Bytes}
    (hn : Spec.NextPacket N r pay2 r2) (hg : GoodKey pay2 cp) :
    ∃ secret raw1 raw2, Replied K N ident s id pay secret cp r2 raw1 raw2 ∧
      s'.out = s.out ++ T ++ (raw1 ++ raw2) ∧
      ((res = R.panic ∧ (Spec.LengthInWindow N r2 ∨
          ∃ pay3 r3 e, Spec.NextPacket N r2 pay3 r3 ∧ Message.parse pay3 = err e)) ∨
       (∃ e, res = err (.packetParse e) ∧ ¬ Spec.LengthInWindow N r2 ∧
          ∀ pay3 r3, ¬ Spec.NextPacket N r2 pay3 r3) ∨
       (res = err .expectedKeys ∧ ∃ pay3 r3 m, Spec.NextPacket N r2 pay3 r3 ∧
          Message.parse pay3 = ok m ∧ m ≠ .newKeys) ∨
       (∃ pay3 r3, Spec.NextPacket N r2 pay3 r3 ∧ Message.parse pay3 = ok .newKeys ∧
          s'.inp = r3 ∧
          res = ok (sessionOf K (K.dhShared secret cp) (theHash K ident id pay secret cp)))) := by
  have hsame : ∀ {id' pay' secret' cp' r2' raw1 raw2},
      Replied K N ident s id' pay' secret' cp' r2' raw1 raw2 →
      id' = id ∧ pay' = pay ∧ cp' = cp ∧ r2' = r2 := by
    intro id' pay' secret' cp' r2' raw1 raw2 hD
    obtain ⟨h1, h2, pay3, h3, h4⟩ := hD.unique hR
    obtain ⟨h5, h6⟩ := h3.unique hn
    rw [h5] at h4
    exact ⟨h1, h2, h4.unique hg, h6⟩
  cases ho with
  | helloWrite _ _ h => exact absurd hw h
  | early _ _ _ _ _ h => exact absurd hR (h _ _ _ _)
  | window0 id' r' _ h1 h2 =>
    obtain ⟨⟨r0, e, hn⟩, _⟩ := hR
    rw [h1, R.ok.injEq, Prod.mk.injEq] at e
    rw [e.2] at h2
    exact absurd h2 (hn.not_window hN)
  | unsupported id' pay' o' r' _ h hn =>
    obtain ⟨_, _, rfl, rfl⟩ := hR.unique h
    exact absurd hNeg hn
  | noKey id' pay' o' r' e _ h _ _ _ hx =>
    obtain ⟨_, _, rfl, rfl⟩ := hR.unique h
    exact absurd hn (hx _ _)
  | window1 id' pay' o' r' _ h _ _ hx =>
    obtain ⟨_, _, rfl, rfl⟩ := hR.unique h
    exact absurd hx (hn.not_window hN)
  | badKey id' pay' o' r' pay2' r2' _ h _ _ hn' hx =>
    obtain ⟨_, _, rfl, rfl⟩ := hR.unique h
    obtain ⟨h5, h6⟩ := hn'.unique hn
    rw [h5] at hx
    exact absurd hg (hx _)
  | replyWrite _ _ _ _ _ _ _ _ _ hD h => exact absurd hw h
  | noNewKeys id' pay' secret cp' r2' raw1 raw2 e _ hD hout h1 h2 =>
    obtain ⟨rfl, rfl, rfl, rfl⟩ := hsame hD
    exact ⟨secret, raw1, raw2, hD, hout, .inr (.inl ⟨e, rfl, h1, h2⟩)⟩
  | window2 id' pay' secret cp' r2' raw1 raw2 _ hD hout h1 =>
    obtain ⟨rfl, rfl, rfl, rfl⟩ := hsame hD
    exact ⟨secret, raw1, raw2, hD, hout, .inl ⟨rfl, .inl h1⟩⟩
  | badNewKeys id' pay' secret cp' r2' raw1 raw2 pay3 r3 e _ hD hout h1 h2 =>
    obtain ⟨rfl, rfl, rfl, rfl⟩ := hsame hD
    exact ⟨secret, raw1, raw2, hD, hout, .inl ⟨rfl, .inr ⟨pay3, r3, e, h1, h2⟩⟩⟩
  | otherMessage id' pay' secret cp' r2' raw1 raw2 pay3 r3 m _ hD hout h1 h2 h3 =>
    obtain ⟨rfl, rfl, rfl, rfl⟩ := hsame hD
    exact ⟨secret, raw1, raw2, hD, hout, .inr (.inr (.inl ⟨rfl, pay3, r3, m, h1, h2, h3⟩))⟩
  | done id' pay' secret cp' r2' raw1 raw2 pay3 r3 _ hD hout h1 h2 h3 =>
    obtain ⟨rfl, rfl, rfl, rfl⟩ := hsame hD
    exact ⟨secret, raw1, raw2, hD, hout, .inr (.inr (.inr ⟨pay3, r3, h1, h2, h3, rfl⟩))⟩

theorem Outcome.window_first (ho : Outcome K N ident T s res s') (hw : s.wcap = none)
    (hN : N < 4294967296) (hp : Ident.parseStream s.inp = ok (id, r))
    (hwin : Spec.LengthInWindow N r) : res = R.panic := by
  have hno : ∀ {id pay o r}, ¬ Reached N s id pay o r := by
    rintro id' pay o r' ⟨⟨r0, e, hn⟩, _⟩
    rw [hp, R.ok.injEq, Prod.mk.injEq] at e
    rw [e.2] at hwin
    exact hn.not_window hN hwin
  have hno' : ∀ {id' pay' secret' cp' r2' raw1 raw2},
      ¬ Replied K N ident s id' pay' secret' cp' r2' raw1 raw2 := by
    intro id' pay' secret' cp' r2' raw1 raw2 hD
    obtain ⟨_, _, _, h, _⟩ := hD.reached
    exact hno h
  cases ho with
  | helloWrite _ _ h => exact absurd hw h
  | early _ _ _ _ h => exact absurd hwin (h _ _ hp)
  | window0 => rfl
  | unsupported id' pay' o' r' _ h hn => exact absurd h hno
  | noKey id' pay' o' r' e _ h _ _ _ hx => exact absurd h hno
  | window1 => rfl
  | badKey => rfl
  | replyWrite _ _ _ _ _ _ _ _ _ hD => exact absurd hD hno'
  | noNewKeys _ _ _ _ _ _ _ _ _ hD => exact absurd hD hno'
  | window2 => rfl
  | badNewKeys => rfl
  | otherMessage _ _ _ _ _ _ _ _ _ _ _ hD => exact absurd hD hno'
  | done _ _ _ _ _ _ _ _ _ _ hD => exact absurd hD hno'

end

end Nora
