import Verif.Props.Packet
import Verif.Spec.Unframed
/-
Exactly which streams are refused by the reader of unencrypted packets, and with which error.
-/
namespace Nora
open R

theorem PacketIo.parse_whole {bs : BlockSize} {mode : Bool} {buf : Bytes} {s : IoSt} {body rest : Bytes}
    (hw : s.inp = Spec.u32 body.length ++ (body ++ rest)) (h1 : 8 ≤ body.length)
    (h2 : body.length < 4294967296) (h3 : 4 + body.length ≤ buf.length) :
    PacketIo.parse buf mode bs s =
      ((Packet.wrapRaw (Spec.u32 body.length ++ (body ++ buf.drop (4 + body.length))) mode bs).mapErr
        .wrapRaw, { s with inp := rest }) := by
  rcases PacketIo.parse_cases (mode := mode) (bs := bs) (s := s) (show 4 ≤ buf.length by omega) with
    ⟨hs, e1⟩ | ⟨n, r, hn, hi, e1⟩
  · rw [hw] at hs; simp at hs; omega
  · rw [hw] at hi
    obtain ⟨rfl, rfl⟩ := u32Nat_app_inj h2 hn hi
    rw [List.take_left, List.drop_left, List.length_append] at e1
    rcases e1 with ⟨_, e1⟩ | ⟨_, _, e1⟩ | ⟨_, _, _, e1⟩ | ⟨_, _, _, e1⟩ | ⟨_, _, _, e1⟩ <;>
      first | exact e1 | omega

theorem Spec.Unframed.error {bs : BlockSize} {mode : Bool} {buf : Bytes} {s : IoSt} {w : Bytes}
    (h4 : 4 ≤ buf.length) {e : PacketParseError} {rest : Bytes} (hw : s.inp = w)
    (h : Spec.Unframed bs mode buf.length w e rest) :
    PacketIo.parse buf mode bs s = (err e, { s with inp := rest }) := by
  rcases PacketIo.parse_cases (mode := mode) (bs := bs) (s := s) h4 with
    ⟨hs, e1⟩ | ⟨n, r, hn, hi, e1⟩
  · rw [hw] at hs
    cases h with
    | short => exact e1
    | large | small | ends | alignment | padding => simp at hs; omega
  · rw [hw] at hi
    cases h with
    | short h => rw [hi] at h; simp at h; omega
    | large h1 h2 =>
      obtain ⟨rfl, rfl⟩ := u32Nat_app_inj h1 hn hi
      rcases e1 with ⟨_, e1⟩ | ⟨_, _, e1⟩ | ⟨_, _, _, e1⟩ | ⟨_, _, _, e1⟩ | ⟨_, _, _, e1⟩ <;>
        first | exact e1 | omega
    | small h1 h2 =>
      obtain ⟨rfl, rfl⟩ := u32Nat_app_inj (by omega) hn hi
      rcases e1 with ⟨_, e1⟩ | ⟨_, _, e1⟩ | ⟨_, _, _, e1⟩ | ⟨_, _, _, e1⟩ | ⟨_, _, _, e1⟩ <;>
        first | exact e1 | omega
    | ends h1 h2 h3 h4 =>
      obtain ⟨rfl, rfl⟩ := u32Nat_app_inj h2 hn hi
      rcases e1 with ⟨_, e1⟩ | ⟨_, _, e1⟩ | ⟨_, _, _, e1⟩ | ⟨_, _, _, e1⟩ | ⟨_, _, _, e1⟩ <;>
        first | exact e1 | omega
    | @alignment body rest h1 h2 h3 ha =>
      obtain ⟨x, r', rfl⟩ : ∃ x r', body = x :: r' := by
        cases body with
        | nil => exact absurd h1 (by decide)
        | cons x r' => exact ⟨x, r', rfl⟩
      rw [PacketIo.parse_whole hw h1 h2 h3, List.cons_append, Packet.wrapRaw_eq h2, if_pos ha]
      rfl
    | padding h1 h2 h3 ha hk =>
      rw [PacketIo.parse_whole hw h1 h2 h3, List.cons_append, Packet.wrapRaw_eq h2, if_neg (fun h => h ha),
        if_pos hk]
      rfl

/-- C17: exactly which streams are not accepted as packet, with which error, and what is left of them -/
theorem C17_errors (buf : Bytes) (mode : Bool) (bs : BlockSize) (s s' : IoSt) (e : PacketParseError)
    (h4 : 4 ≤ buf.length) :
    PacketIo.parse buf mode bs s = (err e, s') ↔
      ∃ rest, Spec.Unframed bs mode buf.length s.inp e rest ∧ s' = { s with inp := rest } := by
  constructor
  · intro h
    rcases PacketIo.parse_cases (mode := mode) (bs := bs) (s := s) h4 with
      ⟨hs, e1⟩ | ⟨n, r, hn, hi, e1⟩
    · rw [e1] at h
      cases h
      exact ⟨_, .short hs, rfl⟩
    · rw [hi]
      rcases e1 with ⟨h1, e1⟩ | ⟨h1, h2, e1⟩ | ⟨h1, h2, h3, e1⟩ | ⟨h1, h2, h3, e1⟩ | ⟨h1, h2, h3, e1⟩ <;>
        rw [e1] at h
      · cases h; exact ⟨_, .large hn h1, rfl⟩
      · cases h; exact ⟨_, .small h2 h1, rfl⟩
      · cases h
      · cases h; exact ⟨_, .ends h1 hn h2 h3, rfl⟩
      · obtain ⟨x, t, rest, rfl, rfl⟩ : ∃ x t rest, r = x :: t ++ rest ∧ n = (x :: t).length := by
          match r, h3 with
          | x :: r, h3 =>
            simp only [List.length_cons] at h3
            refine ⟨x, r.take (n - 1), r.drop (n - 1), by simp, ?_⟩
            simp only [List.length_cons, List.length_take]; omega
          | [], h3 => simp at h3; omega
        rw [List.take_left, List.drop_left, List.cons_append, Packet.wrapRaw_eq hn] at h
        by_cases ha : Spec.Aligned bs mode (x :: t).length
        · rw [if_neg (fun h => h ha)] at h
          by_cases hk : x.toNat ≥ (x :: t).length
          · rw [if_pos hk] at h
            cases h
            exact ⟨_, .padding h1 hn h2 ha hk, rfl⟩
          · rw [if_neg hk] at h
            cases h
        · rw [if_pos ha] at h
          cases h
          exact ⟨_, .alignment h1 hn h2 ha, rfl⟩
  · rintro ⟨rest, h, rfl⟩
    exact h.error h4 rfl

/-- C17: a stream is refused for one reason only -/
theorem C17_one_reason (bs : BlockSize) (mode : Bool) (N : Nat) (w : Bytes) (e e' : PacketParseError)
    (rest rest' : Bytes) (h4 : 4 ≤ N) (h : Spec.Unframed bs mode N w e rest)
    (h' : Spec.Unframed bs mode N w e' rest') : e = e' ∧ rest = rest' := by
  obtain ⟨buf, rfl⟩ : ∃ buf : Bytes, buf.length = N := ⟨List.replicate N 0, List.length_replicate⟩
  have k := h.error (s := ⟨w, [], none, fun _ => 0, []⟩) h4 rfl
  rw [h'.error (s := ⟨w, [], none, fun _ => 0, []⟩) h4 rfl] at k
  cases k
  exact ⟨rfl, rfl⟩

/-- a length that is no multiple of the block size -/
example (rest : Bytes) : Spec.Unframed .b8 true 65536 ([0, 0, 0, 9] ++ (List.replicate 9 0 ++ rest))
    (.wrapRaw .badAlignment) rest :=
  .alignment (body := List.replicate 9 0) (by decide) (by decide) (by decide) (by decide)

/-- more padding than there is room for -/
example (rest : Bytes) : Spec.Unframed .b8 true 65536 ([0, 0, 0, 12] ++ (12 :: List.replicate 11 0 ++ rest))
    (.wrapRaw .paddingTooLarge) rest :=
  .padding (x := 12) (r := List.replicate 11 0) (by decide) (by decide) (by decide) (by decide) (by decide)

end Nora
