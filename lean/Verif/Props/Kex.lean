import Verif.Lemmas.Kex
/-
Properties of the exchange hash and the key material: C27 (the digest; the handshake that feeds it is
in Props/Handshake.lean), C28, C29. The specification is in Verif/Spec/Kex.lean.
-/
namespace Nora
open R

variable {ε : Type}

/-! ### C27 the digest -/

/-- The chain of `update` calls, in the order the types `PostClientId` … force on a caller. `buf` is
the scratch buffer for the host key. -/
def digestChain (K : Crypto) (buf : Bytes) (key : Kex.Key) (t : Spec.Transcript) : R ε Bytes := do
  let h ← KexDigest.clientId [] t.clientId
  let h ← KexDigest.serverId h t.serverId
  let h ← KexDigest.clientKexInit h t.clientKexInit
  let h ← KexDigest.serverKexInit h t.serverKexInit
  let (h, _) ← KexDigest.hostKey h buf key
  let h ← KexDigest.clientEphermalKey h t.clientEphemeral
  let h ← KexDigest.serverEphermalKey h t.serverEphemeral
  KexDigest.secret K h t.secret

/-- C27, digest: the chain hashes exactly the transcript, whatever the items are. -/
theorem C27_digest (K : Crypto) (buf : Bytes) (key : Kex.Key) (t : Spec.Transcript)
    (hf : Spec.TranscriptFits t) (hk : t.hostKey = Spec.hostKey key)
    (hb : t.hostKey.length ≤ buf.length) (hs : t.secret.length ≤ 123) :
    ∃ e, Spec.TranscriptBytes t e ∧ (digestChain K buf key t : R ε Bytes) = ok (K.hash e) := by
  obtain ⟨h1, h2, h3, h4, h5, h6, h7, _⟩ := hf
  refine ⟨transcript t, transcript_spec t, ?_⟩
  simp only [digestChain, KexDigest.clientId, KexDigest.serverId, KexDigest.clientKexInit,
    KexDigest.serverKexInit, KexDigest.clientEphermalKey, KexDigest.serverEphermalKey,
    KexDigest.secret, KexDigest.f_eq _ h1, KexDigest.f_eq _ h2, KexDigest.f_eq _ h3,
    KexDigest.f_eq _ h4, KexDigest.f_eq _ h6, KexDigest.f_eq _ h7,
    KexDigest.hostKey_eq _ _ (hk ▸ h5) (hk ▸ hb), KexDigest.g_eq _ hs, ok_bind, List.nil_append,
    transcript, hk]

/-- a transcript whose items are all different and whose secret needs the zero byte in front -/
example : (digestChain Crypto.trivial (List.replicate 64 9)
      ⟨b! "ecdsa-sha2-nistp256", ⟨b! "nistp256", [4, 1]⟩⟩
      ⟨b! "SSH-2.0-c", b! "SSH-2.0-s", [20, 1], [20, 2],
        Spec.hostKey ⟨b! "ecdsa-sha2-nistp256", ⟨b! "nistp256", [4, 1]⟩⟩, [5], [6], [0, 0x80]⟩ :
      R Unit Bytes) =
    ok (Crypto.trivial.hash (Spec.str (b! "SSH-2.0-c") ++ Spec.str (b! "SSH-2.0-s") ++
      Spec.str [20, 1] ++ Spec.str [20, 2] ++
      Spec.str (Spec.str (b! "ecdsa-sha2-nistp256") ++ Spec.str (b! "nistp256") ++
        Spec.str [4, 1]) ++ Spec.str [5] ++ Spec.str [6] ++ [0, 0, 0, 2, 0, 0x80])) := by
  decide +kernel

/-! ### C28 the encoding is unambiguous -/

/-- C28: equal hash inputs, equal items; the secret is equal as a number -/
theorem C28_injective (t t' : Spec.Transcript) (e : Bytes)
    (hf : Spec.TranscriptFits t) (hf' : Spec.TranscriptFits t')
    (h : Spec.TranscriptBytes t e) (h' : Spec.TranscriptBytes t' e) :
    t.clientId = t'.clientId ∧ t.serverId = t'.serverId ∧ t.clientKexInit = t'.clientKexInit ∧
    t.serverKexInit = t'.serverKexInit ∧ t.hostKey = t'.hostKey ∧
    t.clientEphemeral = t'.clientEphemeral ∧ t.serverEphemeral = t'.serverEphemeral ∧
    Spec.beVal t.secret = Spec.beVal t'.secret := by
  obtain ⟨f1, f2, f3, f4, f5, f6, f7, f8⟩ := hf
  obtain ⟨g1, g2, g3, g4, g5, g6, g7, g8⟩ := hf'
  rw [transcript_unique h] at h'
  have h := transcript_unique h'
  simp only [transcript, List.append_assoc] at h
  obtain ⟨r1, h⟩ := str_app_inj f1 g1 h
  obtain ⟨r2, h⟩ := str_app_inj f2 g2 h
  obtain ⟨r3, h⟩ := str_app_inj f3 g3 h
  obtain ⟨r4, h⟩ := str_app_inj f4 g4 h
  obtain ⟨r5, h⟩ := str_app_inj f5 g5 h
  obtain ⟨r6, h⟩ := str_app_inj f6 g6 h
  obtain ⟨r7, h⟩ := str_app_inj f7 g7 h
  rw [← List.append_nil (Spec.str (mpBody t.secret)),
    ← List.append_nil (Spec.str (mpBody t'.secret))] at h
  obtain ⟨r8, _⟩ := str_app_inj (mpBody_fits (by omega)) (mpBody_fits (by omega)) h
  refine ⟨r1, r2, r3, r4, r5, r6, r7, ?_⟩
  rw [← (mpBody_spec t.secret).1, ← (mpBody_spec t'.secret).1, r8]

/-- C28, for the secrets of X25519, which have a fixed length: the hash input determines the whole
transcript -/
theorem C28_injective_32 (t t' : Spec.Transcript) (e : Bytes)
    (hf : Spec.TranscriptFits t) (hf' : Spec.TranscriptFits t')
    (hl : t.secret.length = 32) (hl' : t'.secret.length = 32)
    (h : Spec.TranscriptBytes t e) (h' : Spec.TranscriptBytes t' e) : t = t' := by
  obtain ⟨h1, h2, h3, h4, h5, h6, h7, h8⟩ := C28_injective t t' e hf hf' h h'
  have := beVal_inj (hl.trans hl'.symm) h8
  cases t; cases t'
  simp_all

/-- C28: the encoding of a transcript is also unique, so the hash input is a function of it -/
theorem C28_functional (t : Spec.Transcript) (e e' : Bytes) (h : Spec.TranscriptBytes t e)
    (h' : Spec.TranscriptBytes t e') : e = e' :=
  (transcript_unique h).trans (transcript_unique h').symm

/-- C28, in terms of the code: two runs of the digest that differ in some item feed different bytes
to the hash, so equal exchange hashes mean equal transcripts, or the encodings of the two transcripts are a
collision of the hash. (Some collision exists for every hash of 32 bytes, so it must be this one.) -/
theorem C28_collision (K : Crypto) (buf buf' : Bytes) (key key' : Kex.Key) (t t' : Spec.Transcript)
    (H : Bytes)
    (hf : Spec.TranscriptFits t) (hk : t.hostKey = Spec.hostKey key)
    (hb : t.hostKey.length ≤ buf.length) (hl : t.secret.length = 32)
    (hf' : Spec.TranscriptFits t') (hk' : t'.hostKey = Spec.hostKey key')
    (hb' : t'.hostKey.length ≤ buf'.length) (hl' : t'.secret.length = 32)
    (h : (digestChain K buf key t : R ε Bytes) = ok H)
    (h' : (digestChain K buf' key' t' : R ε Bytes) = ok H) :
    t = t' ∨ ∃ x y, Spec.TranscriptBytes t x ∧ Spec.TranscriptBytes t' y ∧ x ≠ y ∧ K.hash x = H ∧
      K.hash y = H := by
  obtain ⟨e, he, r⟩ := C27_digest (ε := ε) K buf key t hf hk hb (by omega)
  obtain ⟨e', he', r'⟩ := C27_digest (ε := ε) K buf' key' t' hf' hk' hb' (by omega)
  rw [r, R.ok.injEq] at h
  rw [r', R.ok.injEq] at h'
  by_cases hee : e = e'
  · subst hee
    exact .inl (C28_injective_32 t t' e hf hf' hl hl' he he')
  · exact .inr ⟨e, e', he, he', hee, h, h'⟩

/-- leading zeros of the secret are the one thing the encoding forgets -/
example : ∃ e, Spec.TranscriptBytes ⟨[1], [2], [3], [4], [5], [6], [7], [0, 0, 9]⟩ e ∧
    Spec.TranscriptBytes ⟨[1], [2], [3], [4], [5], [6], [7], [9]⟩ e :=
  ⟨_, transcript_spec _, by
    have := transcript_spec ⟨[1], [2], [3], [4], [5], [6], [7], [9]⟩
    exact this⟩

/-- and moving a byte from one item to the next is not forgotten -/
example : transcript ⟨[1, 2], [], [3], [4], [5], [6], [7], [9]⟩ ≠
    transcript ⟨[1], [2], [3], [4], [5], [6], [7], [9]⟩ := by decide

/-! ### C29 key material -/

/-- C29: every purpose, direction and number of blocks gives the expansion of RFC 4253, with the
exchange hash as session identifier -/
theorem C29_expansion (K : Crypto) (secret hash : Bytes) (m : KeyMaterial) (dir : Direction)
    (n : Nat) (hs : secret.length = 32)
    (hm : (KeyMaterial.new secret hash : R ε KeyMaterial) = ok m) :
    ∃ k, Spec.MpintBody (Spec.beVal secret) k ∧
      (m.initialIv K dir (n + 1) : R ε (List Bytes)) = ok ((List.range (n + 1)).map
        (Spec.keyBlock K.hash (Spec.str k) hash (Spec.keyLetter .iv dir) hash)) ∧
      (m.encryptionKey K dir (n + 1) : R ε (List Bytes)) = ok ((List.range (n + 1)).map
        (Spec.keyBlock K.hash (Spec.str k) hash (Spec.keyLetter .encryption dir) hash)) ∧
      (m.integrityKey K dir (n + 1) : R ε (List Bytes)) = ok ((List.range (n + 1)).map
        (Spec.keyBlock K.hash (Spec.str k) hash (Spec.keyLetter .integrity dir) hash)) := by
  have hh := KeyMaterial.new_holds hs hm
  refine ⟨mpBody secret, mpBody_spec secret, ?_, ?_, ?_⟩ <;> cases dir <;>
    exact KeyMaterial.gen_eq K hh _ n

/-- C29: constructing the material never fails for the 32-byte secrets and hashes it is made from -/
theorem C29_total (secret hash : Bytes) (hs : secret.length = 32) :
    ∃ m, (KeyMaterial.new secret hash : R ε KeyMaterial) = ok m := ⟨_, KeyMaterial.new_eq hash hs⟩

/-- C29: blocks are blocks of the hash, so a key of `n` blocks has `32 n` bytes -/
theorem C29_length (K : Crypto) (k h : Bytes) (x : Byte) (sid : Bytes) (n : Nat) :
    (((List.range n).map (Spec.keyBlock K.hash k h x sid)).flatten).length = 32 * n := by
  induction n with
  | zero => rfl
  | succ n ih =>
    have : (Spec.keyBlock K.hash k h x sid n).length = 32 := by
      cases n <;> rw [Spec.keyBlock, K.hash_length]
    rw [List.range_succ, List.map_append, List.flatten_append, List.length_append, ih]
    simp [this]; omega

/-- C29: asking for more blocks never changes the earlier ones -/
theorem C29_prefix (K : Crypto) (m : KeyMaterial) (secret hash : Bytes) (x : Byte) (n j : Nat)
    (b b' : List Bytes) (hs : secret.length = 32)
    (hm : (KeyMaterial.new secret hash : R ε KeyMaterial) = ok m)
    (h : (m.gen K x n : R ε (List Bytes)) = ok b)
    (h' : (m.gen K x (n + j) : R ε (List Bytes)) = ok b') : b <+: b' := by
  have hh := KeyMaterial.new_holds hs hm
  match n, h, h' with
  | 0, h, _ => exact absurd h (by simp [KeyMaterial.gen])
  | n + 1, h, h' =>
    rw [KeyMaterial.gen_eq K hh, R.ok.injEq] at h
    rw [show n + 1 + j = (n + j) + 1 by omega, KeyMaterial.gen_eq K hh, R.ok.injEq] at h'
    subst h; subst h'
    refine ⟨((List.range j).map (n + 1 + ·)).map
      (Spec.keyBlock K.hash (Spec.str (mpBody secret)) hash x hash), ?_⟩
    rw [← List.map_append, ← List.range_add, show n + 1 + j = n + j + 1 by omega]

/-- C29: the letters are distinct, so first blocks of different purposes or directions are hashes of
different inputs, for one exchange -/
theorem C29_distinct_inputs (k h sid : Bytes) (p p' : Spec.Purpose) (d d' : Direction)
    (hpd : (p, d) ≠ (p', d')) :
    k ++ h ++ [Spec.keyLetter p d] ++ sid ≠ k ++ h ++ [Spec.keyLetter p' d'] ++ sid := by
  intro e
  have e := List.append_cancel_right e
  have e := List.append_cancel_left e
  revert hpd e
  cases p <;> cases p' <;> cases d <;> cases d' <;> decide

/-- C29: the first block is never hashed from the same input as a later block, whatever the later
blocks are: the inputs have different lengths -/
theorem C29_first_later (K : Crypto) (k h : Bytes) (x y : Byte) (n : Nat) (hh : h.length = 32) :
    k ++ h ++ [x] ++ h ≠ k ++ h ++ Spec.keyBlock.keyPrefix K.hash k h y h n := by
  intro e
  have e := congrArg List.length e
  rw [keyPrefix_eq, List.length_append (bs := List.flatten _), C29_length] at e
  simp at e
  omega

/-- C29: the cipher keys: the first block encrypts the data, the second the length -/
theorem C29_cipher (K : Crypto) (secret hash : Bytes) (m : KeyMaterial) (dir : Direction)
    (counter : UInt64) (c : ChaCha) (hs : secret.length = 32)
    (hm : (KeyMaterial.new secret hash : R ε KeyMaterial) = ok m)
    (hc : (ChaCha.fromKeyMaterial K m dir counter : R ε ChaCha) = ok c) :
    ∃ k, Spec.MpintBody (Spec.beVal secret) k ∧
      c.keyData = K.hash (Spec.str k ++ hash ++ [Spec.keyLetter .encryption dir] ++ hash) ∧
      c.keyLength = K.hash (Spec.str k ++ hash ++ c.keyData) ∧ c.counter = counter ∧
      c.keyData.length = 32 ∧ c.keyLength.length = 32 := by
  have hh := KeyMaterial.new_holds hs hm
  rw [ChaCha.fromKeyMaterial_eq K hh, R.ok.injEq] at hc
  subst hc
  refine ⟨mpBody secret, mpBody_spec secret, ?_, ?_, rfl, ?_, ?_⟩
  · simp only [Spec.keyBlock]
  · simp only [Spec.keyBlock, Spec.keyBlock.keyPrefix]
  · simp only [Spec.keyBlock, K.hash_length]
  · simp only [Spec.keyBlock, K.hash_length]

/-- three blocks in the server's direction -/
example : ∃ m, (KeyMaterial.new (List.replicate 32 200) (List.replicate 32 7) :
      R Unit KeyMaterial) = ok m ∧
    (m.integrityKey Crypto.trivial .serverToClient 3 : R Unit (List Bytes)).map List.length = ok 3 ∧
    (m.integrityKey Crypto.trivial .serverToClient 1 : R Unit (List Bytes)) =
      ok [Crypto.trivial.hash ([0, 0, 0, 33, 0] ++ List.replicate 32 200 ++ List.replicate 32 7 ++
        [70] ++ List.replicate 32 7)] := by
  refine ⟨_, rfl, ?_, ?_⟩ <;> decide +kernel

end Nora
