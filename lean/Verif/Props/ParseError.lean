import Verif.Lemmas.ParseError
import Verif.Lemmas.Send
/-
C102: which error a payload is refused with.
-/
namespace Nora
open R

/-- C102: `Message::parse` returns an error exactly for the payloads with that error by the wire format -/
theorem C102_errors (p : Bytes) (e : MessageParseError) : Message.parse p = err e ↔ Spec.ParseError p e :=
  Message.parse_err

/-- C102: a payload has one error at most, and none if it is a message -/
theorem C102_one_error (p : Bytes) (e : MessageParseError) (h : Spec.ParseError p e) :
    (∀ e', Spec.ParseError p e' → e' = e) ∧ ∀ m, ¬ Spec.Reads p m := by
  rw [← C102_errors] at h
  constructor
  · intro e' h'
    rw [← C102_errors, h] at h'
    exact (R.err.inj h').symm
  · intro m hm
    rw [← reads_iff, h] at hm
    cases hm

/-- C102: every payload is a message or has an error -/
theorem C102_every_payload (p : Bytes) : (∃ m, Spec.Reads p m) ∨ ∃ e, Spec.ParseError p e := by
  cases h : Message.parse p with
  | ok m => exact .inl ⟨m, reads_iff.mp h⟩
  | err e => exact .inr ⟨e, (C102_errors p e).mp h⟩
  | panic => exact absurd h Message.parse_ne_panic

section Examples

/-! a DEBUG whose text is not UTF-8 has this error even if bytes follow; a failure to open a channel has the other -/

example : Spec.ParseError [4, 1, 0, 0, 0, 1, 0xff, 0, 0, 0, 0, 9] (.debug .invalidUtf8) :=
  (C102_errors _ _).mp (by decide)

example : Spec.ParseError (92 :: [0, 0, 0, 0] ++ [0, 0, 0, 1] ++ [0, 0, 0, 1, 0xff] ++ [0, 0, 0, 0] ++ [9])
    (.channel (.openFailure .unread)) := (C102_errors _ _).mp (by decide)

/-! a KEXINIT that ends in its second list, after a first one that is not a list of names -/

example : Spec.ParseError (20 :: List.replicate 16 7 ++ [0, 0, 0, 3] ++ b! "a,," ++ [0, 0, 0, 9])
    (.kexInit (.invalidNameList .emptyName)) := (C102_errors _ _).mp (by decide)

example : ¬ Spec.ParseError (20 :: List.replicate 16 7 ++ [0, 0, 0, 3] ++ b! "a,," ++ [0, 0, 0, 9])
    (.kexInit .truncated) := fun h => absurd ((C102_errors _ _).mpr h) (by decide)

/-! a signed request for authentication without the signature -/

example : Spec.ParseError (50 :: [0, 0, 0, 1] ++ b! "u" ++ [0, 0, 0, 1] ++ b! "s" ++ [0, 0, 0, 9] ++ b! "publickey" ++
    [1] ++ [0, 0, 0, 1] ++ b! "a" ++ [0, 0, 0, 1] ++ b! "k") (.userAuth (.request .truncated)) :=
  (C102_errors _ _).mp (by decide)

/-! the same without the flag is a message -/

example : ∀ e, ¬ Spec.ParseError (50 :: [0, 0, 0, 1] ++ b! "u" ++ [0, 0, 0, 1] ++ b! "s" ++ [0, 0, 0, 9] ++
    b! "publickey" ++ [0] ++ [0, 0, 0, 1] ++ b! "a" ++ [0, 0, 0, 1] ++ b! "k") e := by
  intro e h
  rw [← C102_errors] at h
  cases h

/-! by the specification alone: data for a channel whose string is one byte too short -/

example : Spec.ParseError [94, 0, 0, 0, 7, 0, 0, 0, 2, 65] (.channel (.data .truncated)) := by
  refine .body (.data (.inl ⟨⟨[66], [[0, 0, 0, 7], [65, 66]], List.cons_ne_nil _ _, ?_⟩, rfl⟩))
  exact .cons (f := .raw 4) (v := [0, 0, 0, 7]) rfl
    (.cons (f := .str) (v := [65, 66]) (show 2 < 4294967296 by decide) .nil)

end Examples

end Nora
