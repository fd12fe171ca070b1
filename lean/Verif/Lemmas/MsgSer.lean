import Verif.Lemmas.MsgTop
/-
What the serialisers write.
-/
set_option linter.unusedSimpArgs false

namespace Nora
open R

theorem makeString2_eq {s : Bytes} (h : Spec.Fits s) (buf : Bytes) :
    makeString2 buf s = if (Spec.str s).length ≤ buf.length then
      ok ((Spec.str s).length, Spec.str s, buf.drop (Spec.str s).length) else err () :=
  makeString2_emits h buf

theorem makeBool_eq (v : Bool) (buf : Bytes) :
    makeBool buf v = if (Spec.boolT 1 v).length ≤ buf.length then
      ok ((Spec.boolT 1 v).length, Spec.boolT 1 v, buf.drop (Spec.boolT 1 v).length) else err () :=
  makeBool_emits v buf

theorem makeUint32_eq (v : UInt32) (buf : Bytes) :
    makeUint32 buf v = if (Spec.u32 v.toNat).length ≤ buf.length then
      ok ((Spec.u32 v.toNat).length, Spec.u32 v.toNat, buf.drop (Spec.u32 v.toNat).length)
      else err () :=
  makeUint32_emits v buf

theorem makeRaw_eq (s : Bytes) (buf : Bytes) :
    makeRaw buf s = if s.length ≤ buf.length then
      ok (s.length, s, buf.drop s.length) else err () :=
  makeRaw_emits s buf

theorem makePosMpint2_eq {s : Bytes} (h : Spec.Fits (mpBody s)) (buf : Bytes) :
    makePosMpint2 buf s = if (Spec.str (mpBody s)).length ≤ buf.length then
      ok ((Spec.str (mpBody s)).length, Spec.str (mpBody s),
        buf.drop (Spec.str (mpBody s)).length) else err () :=
  makePosMpint2_emits h buf

@[simp] theorem boolT_length (t : Byte) (v : Bool) : (Spec.boolT t v).length = 1 := rfl

theorem ite_bind {c : Prop} {_ : Decidable c} {α β : Type} (x : α) (k : α → R Unit β) :
    ((if c then (ok x : R Unit α) else err ()) >>= k) = if c then k x else err () := by
  split_ifs <;> rfl

theorem ite_ite_err {a b : Prop} {_ : Decidable a} {_ : Decidable b} {α : Type} (x : R Unit α) :
    (if a then (if b then x else err ()) else err ()) = if a ∧ b then x else err () := by
  split_ifs <;> simp_all

theorem ite_final {a b : Prop} {_ : Decidable a} {_ : Decidable b} {α : Type} {x y : R Unit α}
    (h : a ↔ b) (hxy : b → x = y) : (if a then x else err ()) = (if b then y else err ()) := by
  by_cases hb : b
  · rw [if_pos (h.mpr hb), if_pos hb, hxy hb]
  · rw [if_neg (fun ha => hb (h.mp ha)), if_neg hb]

/-- finish a serialiser: all writers have been replaced by their specification -/
macro "fill_tac" : tactic => `(tactic| (
  (try simp only [ite_bind])
  (all_goals try simp only [List.length_drop, List.length_append, List.drop_drop,
    str_length, u32_length, boolT_length, List.append_assoc, List.length_nil, List.length_cons,
    List.nil_append])
  (all_goals try simp only [ite_ite_err])
  all_goals (
    apply ite_final
    · omega
    · intro _
      first
      | done
      | (simp only [R.ok.injEq, Prod.mk.injEq, List.append_assoc, List.append_cancel_left_eq,
          Nat.add_assoc, and_self, true_and, and_true, List.nil_append]; done)
      | (simp only [R.ok.injEq, Prod.mk.injEq, List.append_assoc, List.append_cancel_left_eq,
          Nat.add_assoc, and_self, true_and, and_true, List.nil_append]
         omega)
      | (simp only [R.ok.injEq, Prod.mk.injEq, List.append_assoc, List.append_cancel_left_eq,
          Nat.add_assoc, and_self, true_and, and_true, List.nil_append]
         exact ⟨by omega, by first | rfl | (congr 1; omega)⟩))))

theorem Msg.Disconnect.fills {o : Msg.Disconnect} (h1 : Spec.Fits o.description)
    (h2 : Spec.Fits o.language) : Fills o.serialize (Spec.body 1 (.disconnect o)) := by
  intro buf
  simp only [Msg.Disconnect.serialize, Spec.body, makeUint32_eq, makeString2_eq h1,
    makeString2_eq h2]
  fill_tac

theorem Msg.Ignore.fills {o : Msg.Ignore} (h1 : Spec.Fits o.data) :
    Fills o.serialize (Spec.body 1 (.ignore o)) := by
  intro buf
  simp only [Msg.Ignore.serialize, Spec.body, makeString2_eq h1]
  fill_tac

theorem Msg.Unimplemented.fills {o : Msg.Unimplemented} :
    Fills o.serialize (Spec.body 1 (.unimplemented o)) := by
  intro buf
  simp only [Msg.Unimplemented.serialize, Spec.body, makeUint32_eq]
  fill_tac

theorem Msg.Debug.fills {o : Msg.Debug} (h1 : Spec.Fits o.message) (h2 : Spec.Fits o.language) :
    Fills o.serialize (Spec.body 1 (.debug o)) := by
  intro buf
  simp only [Msg.Debug.serialize, Spec.body, makeBool_eq, makeString2_eq h1, makeString2_eq h2]
  fill_tac

theorem Msg.Service.fills {o : Msg.Service} (h1 : Spec.Fits o.serviceName) :
    Fills o.serialize (Spec.str o.serviceName) := by
  intro buf
  simp only [Msg.Service.serialize, makeString2_eq h1]
  fill_tac

/-- `f` consumes the length of `e` and continues with `F` -/
def Runs {β : Type} (f : Bytes → R Unit β) (e : Bytes) (F : Bytes → R Unit β) : Prop :=
  ∀ buf, f buf = if e.length ≤ buf.length then F (buf.drop e.length) else err ()

theorem Runs.step {β : Type} {g : Bytes → R Unit (Nat × Bytes × Bytes)} {e1 e2 : Bytes}
    (hg : Emits g e1) {k : Nat × Bytes × Bytes → R Unit β} {F : Bytes → R Unit β}
    (hk : Runs (fun buf => k (e1.length, e1, buf)) e2 F) :
    Runs (fun buf => g buf >>= k) (e1 ++ e2) F := by
  intro buf
  have hk' := fun b => hk b
  simp only [] at hk'
  simp only [hg buf, ite_bind, hk', ite_ite_err, List.length_drop, List.drop_drop,
    List.length_append]
  exact ite_final (by omega) (fun _ => rfl)

theorem Runs.nil {β : Type} (F : Bytes → R Unit β) : Runs F [] F := by
  intro buf; simp

theorem Runs.fills {f : Bytes → R Unit (Nat × Bytes)} {e e' : Bytes}
    {F : Bytes → R Unit (Nat × Bytes)}
    (h : Runs f e F) (he : e = e') (hF : ∀ b, F b = ok (e.length, e ++ b)) :
    Fills f e' := by
  subst he
  intro buf
  rw [h buf]
  exact ite_final Iff.rfl (fun _ => by rw [hF])

theorem Kex.KexInit.fills {o : Kex.KexInit} (h : Spec.WF (.kexInit o)) :
    Fills o.serialize (Spec.body 1 (.kexInit o)) := by
  obtain ⟨_, h1, h2, h3, h4, h5, h6, h7, h8, h9, h10⟩ := h
  unfold Kex.KexInit.serialize
  refine Runs.fills (Runs.step (makeRaw_emits _) (Runs.step (makeString2_emits h1.1)
    (Runs.step (makeString2_emits h2.1) (Runs.step (makeString2_emits h3.1)
    (Runs.step (makeString2_emits h4.1) (Runs.step (makeString2_emits h5.1)
    (Runs.step (makeString2_emits h6.1) (Runs.step (makeString2_emits h7.1)
    (Runs.step (makeString2_emits h8.1) (Runs.step (makeString2_emits h9.1)
    (Runs.step (makeString2_emits h10.1) (Runs.step (makeBool_emits _)
    (Runs.step (makeUint32_emits _) (Runs.nil _)))))))))))))) ?_ ?_
  · simp only [Spec.body, List.append_assoc, List.append_nil]; rfl
  · intro b
    simp only [R.ok.injEq, Prod.mk.injEq, List.append_assoc, List.nil_append, List.length_append,
      List.length_nil, and_true]
    omega

theorem Kex.EcdhInit.fills {o : Kex.EcdhInit} (h1 : Spec.Fits o.clientEphermalPublicKey) :
    Fills o.serialize (Spec.body 1 (.kexEcdhInit o)) := by
  intro buf
  simp only [Kex.EcdhInit.serialize, Spec.body, makeString2_eq h1]
  fill_tac

theorem Kex.KeyBlob.emits {k : Kex.KeyBlob} (h1 : Spec.Fits k.identifier) (h2 : Spec.Fits k.q)
    (buf : Bytes) :
    k.serialize buf = if (Spec.str k.identifier ++ Spec.str k.q).length ≤ buf.length then
      ok ((Spec.str k.identifier ++ Spec.str k.q).length, Spec.str k.identifier ++ Spec.str k.q,
        buf.drop (Spec.str k.identifier ++ Spec.str k.q).length)
      else err () := by
  simp only [Kex.KeyBlob.serialize, makeString2_eq h1, makeString2_eq h2]
  fill_tac

theorem Kex.Key.emits {k : Kex.Key} (h : Spec.Fits (Spec.hostKey k)) (buf : Bytes) :
    k.serialize buf = if (Spec.hostKey k).length ≤ buf.length then
      ok ((Spec.hostKey k).length, Spec.hostKey k, buf.drop (Spec.hostKey k).length)
      else err () := by
  have hl := h
  simp only [Spec.Fits, Spec.hostKey, List.length_append, str_length] at hl
  have h1 : Spec.Fits k.name := by simp only [Spec.Fits]; omega
  have h2 : Spec.Fits k.blob.identifier := by simp only [Spec.Fits]; omega
  have h3 : Spec.Fits k.blob.q := by simp only [Spec.Fits]; omega
  simp only [Kex.Key.serialize, Kex.KeyBlob.emits h2 h3, makeString2_eq h1, Spec.hostKey]
  fill_tac

theorem Kex.SignatureBlob.emits {o : Kex.SignatureBlob} (h1 : Spec.Fits (mpBody o.r))
    (h2 : Spec.Fits (mpBody o.s)) (buf : Bytes) :
    o.serialize buf = if (Spec.str (mpBody o.r) ++ Spec.str (mpBody o.s)).length ≤ buf.length then
      ok ((Spec.str (mpBody o.r) ++ Spec.str (mpBody o.s)).length,
        Spec.str (mpBody o.r) ++ Spec.str (mpBody o.s),
        buf.drop (Spec.str (mpBody o.r) ++ Spec.str (mpBody o.s)).length)
      else err () := by
  simp only [Kex.SignatureBlob.serialize, makePosMpint2_eq h1, makePosMpint2_eq h2]
  fill_tac

theorem u32TryFrom_eq {ε : Type} {n : Nat} (h : n < 4294967296) :
    (u32TryFrom n : R ε UInt32) = ok (UInt32.ofNat n) := by
  unfold u32TryFrom; rw [if_pos]; exact h

theorem makeUint32_four {buf : Bytes} (h : 4 ≤ buf.length) {n : Nat} (hn : n < 4294967296) :
    (R.unwrap (makeUint32 (buf.take 4) (UInt32.ofNat n)) : R Unit _) = ok (4, Spec.u32 n, []) := by
  have : (UInt32.ofNat n).toNat = n := by simp; omega
  rw [makeUint32_eq, this, if_pos (by simp; omega)]
  simp [R.unwrap]

/-- the `split_at_mut(4)` … `make_uint32(lenbuf, …)` idiom around a writer of a nested string -/
theorem nested_eq {f : Bytes → R Unit (Nat × Bytes × Bytes)} {e : Bytes} (hf : Emits f e)
    (he : Spec.Fits e) {β : Type} (k : Nat → Bytes → Bytes → Bytes → Bytes → R Unit β)
    (buf : Bytes) :
    (guardE (buf.length ≥ 4) () >>= fun _ => splitAtP buf 4 >>= fun x =>
      f x.2 >>= fun y => u32TryFrom y.1 >>= fun l => (makeUint32 x.1 l).unwrap >>= fun z =>
        k y.1 y.2.1 y.2.2 z.2.1 z.2.2) =
    if 4 + e.length ≤ buf.length then
      k e.length e (buf.drop (4 + e.length)) (Spec.u32 e.length) [] else err () := by
  by_cases h4 : 4 ≤ buf.length
  · simp only [guardE, splitAtP, ge_iff_le, decide_eq_true_eq, if_pos h4, ok_bind, hf _, ite_bind,
      u32TryFrom_eq he, makeUint32_four h4 he, List.length_drop, List.drop_drop]
    exact ite_congr (propext (by omega)) (fun _ => rfl) (fun _ => rfl)
  · rw [if_neg (by omega)]
    simp [guardE, h4]

theorem Kex.Signature.emits {o : Kex.Signature}
    (h : Spec.Fits (Spec.sigBlob o.name (mpBody o.blob.r) (mpBody o.blob.s))) :
    Emits o.serialize (Spec.sigBlob o.name (mpBody o.blob.r) (mpBody o.blob.s)) := by
  intro buf
  have hl := h
  simp only [Spec.Fits, Spec.sigBlob, List.length_append, str_length] at hl
  have h1 : Spec.Fits o.name := by simp only [Spec.Fits]; omega
  have h2 : Spec.Fits (mpBody o.blob.r) := by simp only [Spec.Fits]; omega
  have h3 : Spec.Fits (mpBody o.blob.s) := by simp only [Spec.Fits]; omega
  have h4 : Spec.Fits (Spec.str (mpBody o.blob.r) ++ Spec.str (mpBody o.blob.s)) := by
    simp only [Spec.Fits, List.length_append, str_length]; omega
  have key := fun (b : Bytes) (n : Nat) (w1 : Bytes) =>
    nested_eq (f := o.blob.serialize) (fun b => Kex.SignatureBlob.emits h2 h3 b) h4
      (fun b w2 buf wl wr => ok (n + 4 + b, w1 ++ (wl ++ wr ++ w2), buf)) b
  simp only [Kex.Signature.serialize, makeString2_eq h1, ite_bind, key, Spec.sigBlob]
  simp only [Spec.str]
  fill_tac

theorem Kex.EcdhReply.fills' {o : Kex.EcdhReply} (h1 : Spec.Fits (Spec.hostKey o.serverPublicKey))
    (h2 : Spec.Fits o.serverEphermalPublicKey)
    (h3 : Spec.Fits (Spec.sigBlob o.exchangeHashSignature.name
      (mpBody o.exchangeHashSignature.blob.r) (mpBody o.exchangeHashSignature.blob.s))) :
    Fills o.serialize (Spec.str (Spec.hostKey o.serverPublicKey)
      ++ Spec.str o.serverEphermalPublicKey
      ++ Spec.str (Spec.sigBlob o.exchangeHashSignature.name
        (mpBody o.exchangeHashSignature.blob.r) (mpBody o.exchangeHashSignature.blob.s))) := by
  intro buf
  unfold Kex.EcdhReply.serialize
  refine Eq.trans (nested_eq (f := o.serverPublicKey.serialize) (fun b => Kex.Key.emits h1 b) h1
    (fun a w1 buf wl1 wr1 => makeString2 buf o.serverEphermalPublicKey >>= fun x =>
      guardE (x.2.2.length ≥ 4) () >>= fun _ => splitAtP x.2.2 4 >>= fun s =>
      o.exchangeHashSignature.serialize s.2 >>= fun y => u32TryFrom y.1 >>= fun l =>
      (makeUint32 s.1 l).unwrap >>= fun z =>
      ok (4 + a + x.1 + 4 + y.1, (wl1 ++ wr1 ++ w1) ++ (x.2.1 ++ ((z.2.1 ++ z.2.2 ++ y.2.1)
        ++ y.2.2)))) buf) ?_
  have key := fun (b : Bytes) (k1 : Nat) (w1 : Bytes → Bytes) =>
    nested_eq (f := o.exchangeHashSignature.serialize) (fun b => Kex.Signature.emits h3 b) h3
      (fun c w3 buf wl wr => ok (k1 + c, w1 (wl ++ wr ++ w3 ++ buf))) b
  simp only [makeString2_eq h2, ite_bind]
  generalize Spec.sigBlob o.exchangeHashSignature.name
      (mpBody o.exchangeHashSignature.blob.r) (mpBody o.exchangeHashSignature.blob.s) = sg at *
  generalize Spec.hostKey o.serverPublicKey = hk at *
  have k1 := fun b => key b (4 + hk.length + (Spec.str o.serverEphermalPublicKey).length + 4)
    (fun x => (Spec.u32 hk.length ++ [] ++ hk) ++ (Spec.str o.serverEphermalPublicKey ++ x))
  simp only [k1]
  simp only [Spec.str]
  fill_tac

theorem Auth.Method.emits {m : Auth.Method} (h : Spec.methodWF m) :
    Emits m.serialize (Spec.methodBody 1 m) := by
  have n1 : Spec.Fits (b! "none") := by decide
  have n2 : Spec.Fits (b! "publickey") := by decide
  have n3 : Spec.Fits (b! "password") := by decide
  have n4 : Spec.Fits (b! "hostbased") := by decide
  intro buf
  cases m with
  | none => exact makeString2_emits n1 buf
  | publicKeyBlob a b =>
    obtain ⟨h1, h2⟩ := h
    simp only [Auth.Method.serialize, Spec.methodBody, makeString2_eq h1, makeString2_eq h2,
      makeString2_eq n2, makeBool_eq]
    fill_tac
  | publicKeySigned a b c =>
    obtain ⟨h1, h2, h3⟩ := h
    simp only [Auth.Method.serialize, Spec.methodBody, makeString2_eq h1, makeString2_eq h2,
      makeString2_eq h3, makeString2_eq n2, makeBool_eq]
    fill_tac
  | password p =>
    simp only [Spec.methodWF] at h
    simp only [Auth.Method.serialize, Spec.methodBody, makeString2_eq h,
      makeString2_eq n3, makeBool_eq]
    fill_tac
  | passwordRenew a b =>
    obtain ⟨h1, h2⟩ := h
    simp only [Auth.Method.serialize, Spec.methodBody, makeString2_eq h1, makeString2_eq h2,
      makeString2_eq n3, makeBool_eq]
    fill_tac
  | hostBased a b c d e =>
    obtain ⟨h1, h2, h3, h4, h5, _, _⟩ := h
    simp only [Auth.Method.serialize, Spec.methodBody, makeString2_eq h1, makeString2_eq h2,
      makeString2_eq h3, makeString2_eq h4, makeString2_eq h5, makeString2_eq n4]
    fill_tac
  | other m d =>
    obtain ⟨h1, _⟩ := h
    simp only [Auth.Method.serialize, Spec.methodBody, makeString2_eq h1, makeRaw_eq]
    fill_tac

theorem Auth.Request.fills {o : Auth.Request} (h : Spec.WF (.userAuth (.request o))) :
    Fills o.serialize (Spec.body 1 (.userAuth (.request o))) := by
  intro buf
  obtain ⟨h1, h2, h3⟩ := h
  have h4 := Auth.Method.emits h3
  simp only [Auth.Request.serialize, Spec.body, makeString2_eq h1, makeString2_eq h2, h4 _]
  fill_tac

theorem Auth.Failure.fills {o : Auth.Failure} (h : Spec.WF (.userAuth (.failure o))) :
    Fills o.serialize (Spec.body 1 (.userAuth (.failure o))) := by
  intro buf
  simp only [Auth.Failure.serialize, Spec.body, makeString2_eq h.1, makeBool_eq]
  fill_tac

theorem Auth.Banner.fills {o : Auth.Banner} (h : Spec.WF (.userAuth (.banner o))) :
    Fills o.serialize (Spec.body 1 (.userAuth (.banner o))) := by
  intro buf
  simp only [Auth.Banner.serialize, Spec.body, makeString2_eq h.1, makeString2_eq h.2]
  fill_tac

theorem Auth.PublicKeyOk.fills {o : Auth.PublicKeyOk} (h : Spec.WF (.userAuth (.publicKeyOk o))) :
    Fills o.serialize (Spec.body 1 (.userAuth (.publicKeyOk o))) := by
  intro buf
  simp only [Auth.PublicKeyOk.serialize, Spec.body, makeString2_eq h.1, makeString2_eq h.2]
  fill_tac

theorem Chan.Open.fills {o : Chan.Open} (h : Spec.WF (.channel (.open o))) :
    Fills o.serialize (Spec.body 1 (.channel (.open o))) := by
  intro buf
  simp only [Chan.Open.serialize, Spec.body, makeString2_eq h, makeUint32_eq]
  fill_tac

theorem Chan.OpenConfirmation.fills {o : Chan.OpenConfirmation} :
    Fills o.serialize (Spec.body 1 (.channel (.openConfirmation o))) := by
  intro buf
  simp only [Chan.OpenConfirmation.serialize, Spec.body, makeRaw_eq, makeUint32_eq]
  fill_tac

theorem Chan.OpenFailureReason.code_eq (r : Chan.OpenFailureReason) :
    r.code.toNat = Spec.reasonNum r := by cases r <;> rfl

theorem Chan.OpenFailure.fills {o : Chan.OpenFailure} (h : Spec.WF (.channel (.openFailure o))) :
    Fills o.serialize (Spec.body 1 (.channel (.openFailure o))) := by
  intro buf
  simp only [Chan.OpenFailure.serialize, Spec.body, makeString2_eq h.1, makeString2_eq h.2.1,
    makeUint32_eq, Chan.OpenFailureReason.code_eq]
  fill_tac

theorem Chan.WindowAdjust.fills {o : Chan.WindowAdjust} :
    Fills o.serialize (Spec.body 1 (.channel (.windowAdjust o))) := by
  intro buf
  simp only [Chan.WindowAdjust.serialize, Spec.body, makeUint32_eq]
  fill_tac

theorem Chan.Data.fills {o : Chan.Data} (h : Spec.WF (.channel (.data o))) :
    Fills o.serialize (Spec.body 1 (.channel (.data o))) := by
  intro buf
  simp only [Chan.Data.serialize, Spec.body, makeString2_eq h, makeUint32_eq]
  fill_tac

theorem Chan.ExtendedData.fills {o : Chan.ExtendedData}
    (h : Spec.WF (.channel (.extendedData o))) :
    Fills o.serialize (Spec.body 1 (.channel (.extendedData o))) := by
  intro buf
  simp only [Chan.ExtendedData.serialize, Spec.body, makeString2_eq h, makeUint32_eq]
  fill_tac

theorem Chan.Request.fills {o : Chan.Request} (h : Spec.WF (.channel (.request o))) :
    Fills o.serialize (Spec.body 1 (.channel (.request o))) := by
  intro buf
  simp only [Chan.Request.serialize, Spec.body, makeString2_eq h, makeUint32_eq, makeBool_eq,
    makeRaw_eq]
  fill_tac

theorem Chan.ChanOnly.fills {o : Chan.ChanOnly} :
    Fills o.serialize (Spec.u32 o.recipientChannel.toNat) := by
  intro buf
  simp only [Chan.ChanOnly.serialize, makeUint32_eq]
  fill_tac

/-! ### the whole message -/

theorem serTy_fills {f : Bytes → R Unit (Nat × Bytes)} {e : Bytes} (ty : Byte) (h : Fills f e) :
    Fills (fun buf => serTy ty buf f) (ty :: e) := by
  intro buf
  cases buf with
  | nil => simp [serTy, splitFirst]
  | cons a t =>
    simp only [serTy, splitFirst, ok_bind, h t, ite_bind, List.length_cons, Nat.add_le_add_iff_right,
      List.cons_append, List.drop_succ_cons]

theorem userAuth_fills {e : Bytes} (t : Byte) {f : Bytes → R Unit (Nat × Bytes)} (h : Fills f e) :
    Fills (fun buf => splitFirst buf >>= fun x => (f x.2).map (fun y => (t, y)) >>= fun z =>
      ok (z.2.1 + 1, z.1 :: z.2.2)) (t :: e) := by
  intro buf
  cases buf with
  | nil => simp [splitFirst]
  | cons a r =>
    simp only [splitFirst, ok_bind, h r, List.length_cons, Nat.add_le_add_iff_right,
      List.cons_append, List.drop_succ_cons]
    split_ifs <;> rfl

theorem Fills.nil : Fills (fun buf => (ok (0, buf) : R Unit (Nat × Bytes))) [] := by
  intro buf; simp

theorem splitAtP_of_fills {x : R Unit (Nat × Bytes)} {e buf : Bytes}
    (h : x = if e.length ≤ buf.length then ok (e.length, e ++ buf.drop e.length) else err ()) :
    (x >>= fun y => splitAtP y.2 y.1) =
      if e.length ≤ buf.length then ok (e, buf.drop e.length) else err () := by
  rw [h, ite_bind]
  refine ite_congr rfl (fun _ => ?_) (fun _ => rfl)
  simp [splitAtP]

/-- Serialising a well-formed message other than KEX_ECDH_REPLY: exactly the canonical encoding if
it fits in the buffer, the rest of the buffer untouched; `None` otherwise -/
theorem Message.serialize_eq {m : Message} (hm : Spec.isReply m = false) (h : Spec.WF m)
    (buf : Bytes) :
    m.serialize buf = if (Spec.encode m).length ≤ buf.length then
      ok (Spec.encode m, buf.drop (Spec.encode m).length) else err () := by
  cases m with
  | disconnect o => exact splitAtP_of_fills (serTy_fills 1 (Msg.Disconnect.fills h.1 h.2) buf)
  | ignore o => exact splitAtP_of_fills (serTy_fills 2 (Msg.Ignore.fills h) buf)
  | unimplemented o => exact splitAtP_of_fills (serTy_fills 3 Msg.Unimplemented.fills buf)
  | debug o => exact splitAtP_of_fills (serTy_fills 4 (Msg.Debug.fills h.1 h.2.1) buf)
  | serviceRequest o => exact splitAtP_of_fills (serTy_fills 5 (Msg.Service.fills h) buf)
  | serviceAccept o => exact splitAtP_of_fills (serTy_fills 6 (Msg.Service.fills h) buf)
  | kexInit o => exact splitAtP_of_fills (serTy_fills 20 (Kex.KexInit.fills h) buf)
  | newKeys => exact splitAtP_of_fills (serTy_fills 21 Fills.nil buf)
  | kexEcdhInit o => exact splitAtP_of_fills (serTy_fills 30 (Kex.EcdhInit.fills h) buf)
  | kexEcdhReply o => simp [Spec.isReply] at hm
  | userAuth u =>
    cases u with
    | request o => exact splitAtP_of_fills (userAuth_fills 50 (Auth.Request.fills h) buf)
    | failure o => exact splitAtP_of_fills (userAuth_fills 51 (Auth.Failure.fills h) buf)
    | success => exact splitAtP_of_fills (userAuth_fills 52 Fills.nil buf)
    | banner o => exact splitAtP_of_fills (userAuth_fills 53 (Auth.Banner.fills h) buf)
    | publicKeyOk o => exact splitAtP_of_fills (userAuth_fills 60 (Auth.PublicKeyOk.fills h) buf)
  | channel c =>
    cases c with
    | «open» o => exact splitAtP_of_fills (serTy_fills 90 (Chan.Open.fills h) buf)
    | openConfirmation o =>
      exact splitAtP_of_fills (serTy_fills 91 Chan.OpenConfirmation.fills buf)
    | openFailure o => exact splitAtP_of_fills (serTy_fills 92 (Chan.OpenFailure.fills h) buf)
    | windowAdjust o => exact splitAtP_of_fills (serTy_fills 93 Chan.WindowAdjust.fills buf)
    | data o => exact splitAtP_of_fills (serTy_fills 94 (Chan.Data.fills h) buf)
    | extendedData o => exact splitAtP_of_fills (serTy_fills 95 (Chan.ExtendedData.fills h) buf)
    | eof o => exact splitAtP_of_fills (serTy_fills 96 Chan.ChanOnly.fills buf)
    | close o => exact splitAtP_of_fills (serTy_fills 97 Chan.ChanOnly.fills buf)
    | request o => exact splitAtP_of_fills (serTy_fills 98 (Chan.Request.fills h) buf)
    | success o => exact splitAtP_of_fills (serTy_fills 99 Chan.ChanOnly.fills buf)
    | failure o => exact splitAtP_of_fills (serTy_fills 100 Chan.ChanOnly.fills buf)

end Nora
