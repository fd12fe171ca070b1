import Verif.Lemmas.Io
import Verif.Lemmas.Mpint
import Verif.Spec.Kex
/-
Lemmas about the exchange hash and the key material.
-/
namespace Nora
open R

variable {ε : Type}

theorem KexDigest.f_eq (h : Bytes) {s : Bytes} (hs : Spec.Fits s) :
    (KexDigest.f h s : R ε Bytes) = ok (h ++ Spec.str s) := by
  have e : makeStringLen s = ok (Spec.u32 s.length) := by
    simp only [makeStringLen, u32TryFrom_fits hs, ok_bind, u32ToBe_ofNat hs]
  simp only [KexDigest.f, e, R.unwrap, ok_bind, Spec.str, List.append_assoc]

theorem mpBody_fits {s : Bytes} (h : s.length < 4294967295) : Spec.Fits (mpBody s) := by
  have := mpBody_length s
  unfold Spec.Fits; omega

theorem makePosMpint_zero {n : Nat} {s : Bytes} (hf : Spec.Fits (mpBody s))
    (h : (Spec.str (mpBody s)).length ≤ n) :
    makePosMpint (List.replicate n 0) s = ok ((Spec.str (mpBody s)).length,
      Spec.str (mpBody s) ++ (List.replicate n 0).drop (Spec.str (mpBody s)).length) := by
  have := makePosMpint_fills hf (List.replicate n 0)
  rw [List.length_replicate, if_pos h] at this
  exact this

theorem KexDigest.g_eq (h : Bytes) {s : Bytes} (hs : s.length ≤ 123) :
    (KexDigest.g h s : R ε Bytes) = ok (h ++ Spec.str (mpBody s)) := by
  have hl := mpBody_length s
  unfold KexDigest.g
  rw [makePosMpint_zero (mpBody_fits (by omega)) (by rw [str_length]; omega)]
  simp only [R.unwrap, ok_bind, idxTo]
  rw [if_pos (by len)]
  simp

theorem KexDigest.hostKey_eq (h buf : Bytes) {k : Kex.Key} (hf : Spec.Fits (Spec.hostKey k))
    (hl : (Spec.hostKey k).length ≤ buf.length) :
    (KexDigest.hostKey h buf k : R ε (Bytes × Bytes)) =
      ok (h ++ Spec.str (Spec.hostKey k),
        Spec.hostKey k ++ buf.drop (Spec.hostKey k).length) := by
  unfold KexDigest.hostKey
  rw [Kex.Key.emits hf, if_pos hl]
  simp only [R.unwrap, ok_bind, idxTo]
  rw [if_pos (by len)]
  simp [KexDigest.f_eq _ hf]

theorem KeyMaterial.new_eq {secret : Bytes} (hash : Bytes) (hs : secret.length = 32) :
    (KeyMaterial.new secret hash : R ε KeyMaterial) = ok
      { secret := Spec.str (mpBody secret) ++
          (List.replicate 37 0).drop (Spec.str (mpBody secret)).length
        secretLen := (Spec.str (mpBody secret)).length
        hash } := by
  have hl := mpBody_length secret
  unfold KeyMaterial.new
  rw [makePosMpint_zero (mpBody_fits (by omega)) (by rw [str_length]; omega)]
  rfl

/-- the material holds the encoded secret `k` and the hash `h` -/
def KeyMaterial.Holds (m : KeyMaterial) (k h : Bytes) : Prop :=
  m.secret.take m.secretLen = k ∧ m.secretLen ≤ m.secret.length ∧ m.hash = h

theorem KeyMaterial.new_holds {secret hash : Bytes} {m : KeyMaterial} (hs : secret.length = 32)
    (h : (KeyMaterial.new secret hash : R ε KeyMaterial) = ok m) :
    m.Holds (Spec.str (mpBody secret)) hash := by
  rw [KeyMaterial.new_eq hash hs, R.ok.injEq] at h
  subst h
  exact ⟨by simp, by simp, rfl⟩

theorem keyPrefix_eq (hash : Bytes → Bytes) (k h : Bytes) (x : Byte) (sid : Bytes) (n : Nat) :
    Spec.keyBlock.keyPrefix hash k h x sid n =
      ((List.range (n + 1)).map (Spec.keyBlock hash k h x sid)).flatten := by
  induction n with
  | zero => rw [Spec.keyBlock.keyPrefix]; simp
  | succ n ih =>
    rw [Spec.keyBlock.keyPrefix, ih, List.range_succ (n := n + 1), List.map_append,
      List.flatten_append]
    simp

theorem foldl_append (l : List Bytes) (a : Bytes) :
    l.foldl (fun d k => d ++ k) a = a ++ l.flatten := by
  induction l generalizing a with
  | nil => simp
  | cons b t ih => rw [List.foldl_cons, ih, List.flatten_cons, List.append_assoc]

theorem KeyMaterial.genLoop_eq (K : Crypto) {m : KeyMaterial} {k h : Bytes} (hm : m.Holds k h)
    (x : Byte) (todo : Nat) : ∀ n : Nat,
    (m.genLoop K todo ((List.range (n + 1)).map (Spec.keyBlock K.hash k h x h)) :
        R ε (List Bytes)) =
      ok ((List.range (n + 1 + todo)).map (Spec.keyBlock K.hash k h x h)) := by
  obtain ⟨h1, h2, h3⟩ := hm
  induction todo with
  | zero => intro n; rfl
  | succ todo ih =>
    intro n
    have e : (m.digestKn K ((List.range (n + 1)).map (Spec.keyBlock K.hash k h x h)) :
        R ε Bytes) = ok (Spec.keyBlock K.hash k h x h (n + 1)) := by
      simp only [KeyMaterial.digestKn, idxTo]
      rw [if_pos h2, ok_bind, foldl_append, h1, h3, Spec.keyBlock, keyPrefix_eq]
    rw [KeyMaterial.genLoop, e, ok_bind]
    have := ih (n + 1)
    rw [List.range_succ, List.map_append] at this
    rw [show n + 1 + (todo + 1) = n + 1 + 1 + todo by omega, ← this]
    rfl

theorem KeyMaterial.gen_eq (K : Crypto) {m : KeyMaterial} {k h : Bytes} (hm : m.Holds k h)
    (x : Byte) (n : Nat) :
    (m.gen K x (n + 1) : R ε (List Bytes)) =
      ok ((List.range (n + 1)).map (Spec.keyBlock K.hash k h x h)) := by
  have e : (m.digestK1 K x : R ε Bytes) = ok (Spec.keyBlock K.hash k h x h 0) := by
    obtain ⟨h1, h2, h3⟩ := hm
    simp only [KeyMaterial.digestK1, idxTo]
    rw [if_pos h2, ok_bind, h1, h3, Spec.keyBlock]
  rw [KeyMaterial.gen, e, ok_bind]
  have := KeyMaterial.genLoop_eq (ε := ε) K hm x n 0
  rw [show 0 + 1 + n = n + 1 by omega] at this
  exact this

theorem ChaCha.fromKeyMaterial_eq (K : Crypto) {m : KeyMaterial} {k h : Bytes} (hm : m.Holds k h)
    (dir : Direction) (counter : UInt64) :
    (ChaCha.fromKeyMaterial K m dir counter : R ε ChaCha) = ok
      { keyLength := Spec.keyBlock K.hash k h (Spec.keyLetter .encryption dir) h 1
        keyData := Spec.keyBlock K.hash k h (Spec.keyLetter .encryption dir) h 0
        counter, uses := [] } := by
  have e : KeyMaterial.letter 67 dir = Spec.keyLetter .encryption dir := by cases dir <;> rfl
  rw [ChaCha.fromKeyMaterial, KeyMaterial.encryptionKey, KeyMaterial.gen_eq K hm, ok_bind, e]
  rfl

/-- the encoding of a transcript -/
def transcript (t : Spec.Transcript) : Bytes :=
  Spec.str t.clientId ++ Spec.str t.serverId ++ Spec.str t.clientKexInit ++
    Spec.str t.serverKexInit ++ Spec.str t.hostKey ++ Spec.str t.clientEphemeral ++
    Spec.str t.serverEphemeral ++ Spec.str (mpBody t.secret)

theorem transcript_spec (t : Spec.Transcript) : Spec.TranscriptBytes t (transcript t) :=
  ⟨mpBody t.secret, mpBody_spec t.secret, rfl⟩

theorem transcript_unique {t : Spec.Transcript} {e : Bytes} (h : Spec.TranscriptBytes t e) :
    e = transcript t := by
  obtain ⟨k, hk, rfl⟩ := h
  rw [mpintBody_unique hk (mpBody_spec t.secret)]; rfl

end Nora
