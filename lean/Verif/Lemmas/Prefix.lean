import Verif.Lemmas.MsgTop
/-
Prefix-freeness of the wire format (used by C07).
-/
namespace Nora
open R

theorem str_app_inj {a b x y : Bytes} (ha : Spec.Fits a) (hb : Spec.Fits b)
    (h : Spec.str a ++ x = Spec.str b ++ y) : a = b ∧ x = y := by
  have t := congrArg parseString h
  rw [parseString_str a x ha, parseString_str b y hb] at t
  simpa using t

theorem u32_app_inj {a b : UInt32} {x y : Bytes}
    (h : Spec.u32 a.toNat ++ x = Spec.u32 b.toNat ++ y) : a = b ∧ x = y := by
  obtain ⟨h1, h2⟩ := List.append_inj h (by simp)
  exact ⟨UInt32.toNat_inj.mp (u32_inj a.toNat_lt b.toNat_lt h1), h2⟩

theorem u32n_app_inj {n m : Nat} {x y : Bytes}
    (h : Spec.u32 n ++ x = Spec.u32 m ++ y) : x = y :=
  (List.append_inj h (by simp)).2

theorem boolT_app_inj {t t' : Byte} {a b : Bool} {x y : Bytes} (ht : t ≠ 0) (ht' : t' ≠ 0)
    (h : Spec.boolT t a ++ x = Spec.boolT t' b ++ y) : a = b ∧ x = y := by
  simp only [Spec.boolT, List.cons_append, List.nil_append, List.cons.injEq] at h
  refine ⟨?_, h.2⟩
  cases a <;> cases b <;> simp_all

theorem msgNum_lt (m : Message) : Spec.msgNum m < 256 := by
  cases m with
  | userAuth u => cases u <;> simp [Spec.msgNum]
  | channel c => cases c <;> simp [Spec.msgNum]
  | _ => simp [Spec.msgNum]

theorem encode_num {m m' : Message} {t t' : Byte} {s s' : Bytes}
    (h : Spec.encodeT t m ++ s = Spec.encodeT t' m' ++ s') :
    Spec.msgNum m = Spec.msgNum m' ∧ Spec.body t m ++ s = Spec.body t' m' ++ s' := by
  simp only [Spec.encodeT, List.cons_append, List.cons.injEq] at h
  refine ⟨?_, h.2⟩
  have := congrArg UInt8.toNat h.1
  rwa [UInt8.toNat_ofNat_of_lt' (msgNum_lt m), UInt8.toNat_ofNat_of_lt' (msgNum_lt m')] at this

attribute [local irreducible] Spec.str Spec.u32 Spec.boolT

/-- strip one equal field from both sides of `h` -/
local macro "peel" h:ident ha:ident hb:ident ht:ident ht':ident : tactic => `(tactic|
  first
  | exact $h
  | replace $h := (u32_app_inj $h).2
  | replace $h := u32n_app_inj $h
  | (have hx := (boolT_app_inj $ht $ht' $h).1
     first
     | (exfalso; cases hx; done)
     | replace $h := (boolT_app_inj $ht $ht' $h).2)
  | replace $h := (str_app_inj (by first | decide | simp only [$ha:ident])
      (by first | decide | simp only [$hb:ident]) $h).2)

theorem method_prefix {a b : Auth.Method} (ha : Spec.methodWF a) (hb : Spec.methodWF b)
    {t t' : Byte} (ht : t ≠ 0) (ht' : t' ≠ 0) {s : Bytes}
    (h : Spec.methodBody t a ++ s = Spec.methodBody t' b ++ [])
    (ho : Spec.methodOpen a = false ∨ Spec.methodOpen b = false) : s = [] := by
  cases a <;> cases b <;>
    simp only [Spec.methodWF, Spec.methodBody, Spec.methodOpen, List.append_assoc] at ha hb h ho <;>
    first
    | simp at ho; done
    | (obtain ⟨hx, h⟩ := str_app_inj (by decide) (by decide) h; first | exact h | (exfalso; revert hx; decide))
    | (obtain ⟨hx, h⟩ := str_app_inj (by decide) hb.1 h; exact absurd (hx ▸ by decide) hb.2)
    | (obtain ⟨hx, h⟩ := str_app_inj ha.1 (by decide) h; exact absurd (hx ▸ by decide) ha.2)
    | skip
  all_goals repeat peel h ha hb ht ht'

theorem prefix_free {m m' : Message} (hm : Spec.WF m) (hm' : Spec.WF m')
    (ho : Spec.openEnded m = false ∨ Spec.openEnded m' = false) {t t' : Byte} (ht : t ≠ 0)
    (ht' : t' ≠ 0) {s : Bytes} (h : Spec.encodeT t m ++ s = Spec.encodeT t' m') : s = [] := by
  rw [← List.append_nil (Spec.encodeT t' m')] at h
  obtain ⟨hn, h⟩ := encode_num h
  rcases m with _ | _ | _ | _ | _ | _ | _ | _ | _ | _ | (_ | _ | _ | _ | _) |
    (_ | _ | _ | _ | _ | _ | _ | _ | _ | _ | _) <;>
  rcases m' with _ | _ | _ | _ | _ | _ | _ | _ | _ | _ | (_ | _ | _ | _ | _) |
    (_ | _ | _ | _ | _ | _ | _ | _ | _ | _ | _) <;>
  first
  | exact absurd hn (by simp only [Spec.msgNum]; decide)
  | (simp only [Spec.openEnded] at ho; exact absurd ho (by decide))
  | skip
  case kexInit =>
    obtain ⟨c, hm⟩ := hm
    obtain ⟨c', hm'⟩ := hm'
    simp only [Spec.body, List.append_assoc] at h
    replace h := (List.append_inj h (c.trans c'.symm)).2
    simp only [Spec.nlWF] at hm hm'
    iterate 13 peel h hm hm' ht ht'
  case userAuth.request =>
    obtain ⟨h1, h2, h3⟩ := hm
    obtain ⟨h1', h2', h3'⟩ := hm'
    simp only [Spec.body, List.append_assoc] at h
    replace h := (str_app_inj h1 h1' h).2
    replace h := (str_app_inj h2 h2' h).2
    exact method_prefix h3 h3' ht ht' h ho
  all_goals simp only [Spec.WF, Spec.nlWF] at hm hm'
  all_goals simp only [Spec.body, List.append_assoc, List.nil_append] at h
  all_goals repeat peel h hm hm' ht ht'

end Nora
