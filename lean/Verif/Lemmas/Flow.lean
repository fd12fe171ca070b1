import Verif.Lemmas.AuthRun
import Verif.Lemmas.ConnTrace
import Verif.Spec.Flow
/-
The bytes and random numbers of the encrypted part of a connection.
-/
namespace Nora
open R

/-! ### the streams -/

section streams
variable {K : Crypto} {k : Spec.Keys} {D D' F F' : Prop} {n : Nat} {ps qs : List Bytes} {u v w w' : Bytes}
  {r r' r'' : Tape}

theorem Spec.Written.mono (hD : D → D') (hF : F → F') (h : Spec.Written K k D F n r ps w r') :
    Spec.Written K k D' F' n r ps w r' := by
  induction h with
  | nil => exact .nil
  | cons h1 h2 h2' h3 h4 _ ih =>
    exact .cons h1 h2 h2' h3 (fun h => (h4 h).imp hD fun h => ⟨hF h.1, h.2⟩) ih

theorem Spec.Taken.mono (hD : D → D') (h : Spec.Taken K k D n ps u) : Spec.Taken K k D' n ps u := by
  induction h with
  | nil => exact .nil
  | cons h1 h2 h3 h4 _ ih => exact .cons (fun h => hD (h1 h)) h2 h3 h4 ih

theorem Spec.Written.append (h : Spec.Written K k D False n r ps w r') :
    Spec.Written K k D F (n + ps.length) r' qs w' r'' →
      Spec.Written K k D F n r (ps ++ qs) (w ++ w') r'' := by
  induction h with
  | nil => exact id
  | @cons n r p j raw m ps w r' h1 h2 h2' h3 h4 _ ih =>
    intro g
    rw [List.append_assoc]
    refine .cons h1 h2 h2' h3 (fun h => .inl ((h4 h).resolve_right fun h => h.1)) (ih ?_)
    rw [List.length_cons] at g
    rw [show n + 1 + ps.length = n + (ps.length + 1) by omega]
    exact g

theorem Spec.Taken.append (h : Spec.Taken K k D n ps u) :
    Spec.Taken K k D (n + ps.length) qs v → Spec.Taken K k D n (ps ++ qs) (u ++ v) := by
  induction h with
  | nil => exact id
  | @cons n p gap raw ps u h1 h2 h3 h4 _ ih =>
    intro g
    rw [List.append_assoc]
    refine .cons h1 h2 h3 h4 (ih ?_)
    rw [List.length_cons] at g
    rw [show n + 1 + ps.length = n + (ps.length + 1) by omega]
    exact g

/-- other bytes in front -/
theorem Spec.Taken.gap (hv : v ≠ [] → D) (h : Spec.Taken K k D n ps u) (hp : ps ≠ []) :
    Spec.Taken K k D n ps (v ++ u) := by
  cases h with
  | nil => exact absurd rfl hp
  | cons h1 h2 h3 h4 h5 =>
    rw [List.append_assoc, ← List.append_assoc v, ← List.append_assoc]
    refine .cons (fun h => ?_) h2 h3 h4 h5
    by_cases hv' : v = []
    · subst hv'
      exact h1 h
    · exact hv hv'

theorem Spec.Written.nil_iff : Spec.Written K k D F n r [] w r' ↔ w = [] ∧ r' = r := by
  constructor
  · rintro ⟨⟩
    exact ⟨rfl, rfl⟩
  · rintro ⟨rfl, rfl⟩
    exact .nil

theorem Spec.Taken.nil_iff : Spec.Taken K k D n [] u ↔ u = [] := by
  constructor
  · rintro ⟨⟩
    rfl
  · rintro rfl
    exact .nil

end streams

/-! ### computations -/

/-- the ciphers, and what is required of the rest of the state -/
structure Ends where
  send : ChaCha
  recv : ChaCha
  fine : Prop

/-- What happens between two states of a connection. `o` are the ciphers afterwards, if the connection
goes on. `D` must hold if a write is dropped, `G` if a read is dropped. -/
def Carries (K : Crypto) (D G : Prop) (e : Ends) (s s' : IoSt) (o : Option Ends) : Prop :=
  ∃ (t : List Event) (w u v : Bytes) (r' : Tape), s'.log = s.log ++ t ∧ s'.out = s.out ++ w ∧
    s.inp = u ++ v ++ s'.inp ∧
    Spec.Written K (Spec.keysOf e.send) D (o = none) e.send.counter.toNat s.rng (Spec.sentPayloads t) w r' ∧
    Spec.Taken K (Spec.keysOf e.recv) G e.recv.counter.toNat (Spec.payloads t) u ∧
    ∀ e', o = some e' → (v ≠ [] → G) ∧ s'.rng = r' ∧ e'.fine ∧
      Spec.keysOf e'.send = Spec.keysOf e.send ∧
      e'.send.counter.toNat = e.send.counter.toNat + (Spec.sentPayloads t).length ∧
      Spec.keysOf e'.recv = Spec.keysOf e.recv ∧
      e'.recv.counter.toNat = e.recv.counter.toNat + (Spec.payloads t).length

section carries
variable {K : Crypto} {D G D' G' : Prop} {e e1 : Ends} {s s1 s2 : IoSt} {o : Option Ends}

theorem Carries.refl (hf : e.fine) : Carries K D G e s s (some e) :=
  ⟨[], [], [], [], s.rng, by simp, by simp, by simp, .nil, .nil, by
    rintro e' ⟨⟩
    exact ⟨by simp, rfl, hf, rfl, rfl, rfl, rfl⟩⟩

theorem Carries.stop (h : Carries K D G e s s1 o) : Carries K D G e s s1 none := by
  obtain ⟨t, w, u, v, r', h1, h2, h3, h4, h6, -⟩ := h
  exact ⟨t, w, u, v, r', h1, h2, h3, h4.mono id (fun _ => rfl), h6, by simp⟩

theorem Carries.mono (hD : D → D') (hG : G → G') (h : Carries K D G e s s1 o) :
    Carries K D' G' e s s1 o := by
  obtain ⟨t, w, u, v, r', h1, h2, h3, h4, h6, h7⟩ := h
  exact ⟨t, w, u, v, r', h1, h2, h3, h4.mono hD id, h6.mono hG, fun e' he =>
    ⟨fun hv => hG ((h7 e' he).1 hv), (h7 e' he).2⟩⟩

/-- replacing the requirements -/
theorem Carries.fine (h : Carries K D G e s s1 (some e1)) {P : Prop} (hP : e1.fine → P) :
    Carries K D G e s s1 (some ⟨e1.send, e1.recv, P⟩) := by
  obtain ⟨t, w, u, v, r', h1, h2, h3, h4, h6, h7⟩ := h
  refine ⟨t, w, u, v, r', h1, h2, h3, h4.mono id (by simp), h6, ?_⟩
  rintro e' ⟨⟩
  obtain ⟨a2, a3, a4, a5⟩ := h7 _ rfl
  exact ⟨a2, a3, hP a4, a5⟩

theorem Carries.isFine (h : Carries K D G e s s1 (some e1)) : e1.fine := by
  obtain ⟨t, w, u, v, r', h1, h2, h3, h4, h6, h7⟩ := h
  exact (h7 _ rfl).2.2.1

theorem Carries.trans (h : Carries K D G e s s1 (some e1)) (g : Carries K D G e1 s1 s2 o) :
    Carries K D G e s s2 o := by
  obtain ⟨t, w, u, v, r', h1, h2, h3, h4, h6, h7⟩ := h
  obtain ⟨hv, hr, -, hks, hcs, hkr, hcr⟩ := h7 _ rfl
  obtain ⟨t2, w2, u2, v2, r2', g1, g2, g3, g4, g6, g7⟩ := g
  rw [hks, hcs, hr] at g4
  rw [hkr, hcr] at g6
  have hw := (h4.mono id (F' := False) (by simp)).append g4
  rw [← sentPayloads_append] at hw
  have hlast : ∀ e', o = some e' → s2.rng = r2' ∧ e'.fine ∧
      Spec.keysOf e'.send = Spec.keysOf e.send ∧
      e'.send.counter.toNat = e.send.counter.toNat + (Spec.sentPayloads (t ++ t2)).length ∧
      Spec.keysOf e'.recv = Spec.keysOf e.recv ∧
      e'.recv.counter.toNat = e.recv.counter.toNat + (Spec.payloads (t ++ t2)).length := by
    intro e' he
    obtain ⟨-, a3, a4, a5, a6, a7, a8⟩ := g7 e' he
    refine ⟨a3, a4, a5.trans hks, ?_, a7.trans hkr, ?_⟩
    · rw [a6, hcs, sentPayloads_append, List.length_append]; omega
    · rw [a8, hcr, payloads_append, List.length_append]; omega
  by_cases hp : Spec.payloads t2 = []
  · rw [hp, Spec.Taken.nil_iff] at g6
    subst g6
    refine ⟨t ++ t2, w ++ w2, u, v ++ v2, r2', ?_, ?_, ?_, hw, ?_, ?_⟩
    · rw [g1, h1, List.append_assoc]
    · rw [g2, h2, List.append_assoc]
    · rw [h3, g3]; simp
    · rw [payloads_append, hp, List.append_nil]
      exact h6
    · intro e' he
      refine ⟨?_, hlast e' he⟩
      intro hne
      by_cases hv' : v = []
      · subst hv'
        exact (g7 e' he).1 hne
      · exact hv hv'
  · refine ⟨t ++ t2, w ++ w2, u ++ (v ++ u2), v2, r2', ?_, ?_, ?_, hw, ?_, ?_⟩
    · rw [g1, h1, List.append_assoc]
    · rw [g2, h2, List.append_assoc]
    · rw [h3, g3]; simp
    · rw [payloads_append]
      exact h6.append (g6.gap hv hp)
    · intro e' he
      exact ⟨(g7 e' he).1, hlast e' he⟩

/-- nothing happens -/
theorem Carries.idle (h : Carries K D G e s s1 (some e1)) (g1 : s2.log = s1.log) (g2 : s2.out = s1.out)
    (g3 : s2.inp = s1.inp) : Carries K D G e s s2 none := by
  obtain ⟨t, w, u, v, r', h1, h2, h3, h4, h6, h7⟩ := h
  exact ⟨t, w, u, v, r', by rw [g1, h1], by rw [g2, h2], by rw [g3, h3], h4.mono id (by simp), h6, by simp⟩

end carries

/-- the ciphers after a computation -/
def endsAfter {ε α : Type} (g : α → Option Ends) (h : ε → Option Ends) : R ε α → Option Ends
  | ok a => g a
  | err b => h b
  | R.panic => none

/-- A computation starts with the ciphers `e`, and leaves those given by `g` or `h`. -/
def Flow {ε α : Type} (K : Crypto) (D G : Prop) (e : Ends) (g : α → Option Ends) (h : ε → Option Ends)
    (x : M ε α) : Prop :=
  e.fine → ∀ s, Carries K D G e s (x s).2 (endsAfter g h (x s).1)

section flow
variable {ε ε' α β : Type} {K : Crypto} {D G : Prop} {e e1 : Ends} {g g1 : α → Option Ends}
  {g2 : β → Option Ends} {h : ε → Option Ends} {h' : ε' → Option Ends}

theorem Flow.bind {x : M ε α} {f : α → M ε β} (hx : Flow K D G e g1 h x)
    (hf : ∀ a, (∃ e1, g1 a = some e1 ∧ Flow K D G e1 g2 h (f a)) ∨
      ((∀ s, (f a s).2 = s ∧ endsAfter g2 h (f a s).1 = none))) : Flow K D G e g2 h (x >>= f) := by
  intro hfine s
  have h1 := hx hfine s
  rw [M.bind_run]
  rcases hxs : x s with ⟨r, s1⟩
  rw [hxs] at h1
  cases r with
  | ok a =>
    rcases hf a with ⟨e1, h2, h3⟩ | h2
    · simp only [endsAfter, h2] at h1
      exact h1.trans (h3 h1.isFine s1)
    · obtain ⟨h3, h4⟩ := h2 s1
      simp only
      rw [h3, h4]
      exact h1.stop
  | err b => exact h1
  | panic => exact h1

theorem Flow.bind_some {x : M ε α} {f : α → M ε β} {e1 : α → Ends}
    (hx : Flow K D G e (fun a => some (e1 a)) h x)
    (hf : ∀ a, Flow K D G (e1 a) g2 h (f a)) : Flow K D G e g2 h (x >>= f) :=
  .bind hx fun a => .inl ⟨_, rfl, hf a⟩

theorem Flow.mapErr {x : M ε α} (f : ε → ε') (hx : Flow K D G e g h x)
    (hf : ∀ b, h' (f b) = none ∨ h' (f b) = h b) : Flow K D G e g h' (x.mapErr f) := by
  intro hfine s
  have h1 := hx hfine s
  rw [M.mapErr_run]
  revert h1
  rcases x s with ⟨r, s1⟩
  intro h1
  cases r with
  | ok a => exact h1
  | err b =>
    simp only [R.mapErr, endsAfter] at h1 ⊢
    rcases hf b with h2 | h2
    · rw [h2]; exact h1.stop
    · rw [h2]; exact h1
  | panic => exact h1

theorem Flow.unwrap {x : M ε α} (hx : Flow K D G e g h x) :
    Flow K D G e g h' (x.unwrap : M ε' α) := by
  intro hfine s
  have h1 := hx hfine s
  rw [M.unwrap_run]
  revert h1
  rcases x s with ⟨r, s1⟩
  intro h1
  cases r with
  | ok a => exact h1
  | err b => exact h1.stop
  | panic => exact h1

theorem Flow.lift_bind {x : R ε α} {f : α → M ε β} (hn : ∀ b, x = err b → h b = none)
    (hf : ∀ a, x = ok a → Flow K D G e g2 h (f a)) : Flow K D G e g2 h (M.lift x >>= f) := by
  intro hfine s
  cases x with
  | ok a =>
    rw [M.lift_ok_bind]
    exact hf a rfl hfine s
  | err b =>
    rw [M.lift_err_bind]
    show Carries K D G e s s (h b)
    rw [hn b rfl]
    exact (Carries.refl hfine).stop
  | panic => exact (Carries.refl hfine).stop

theorem Flow.pure {a : α} (hg : ∀ e', g a = some e' → e'.send = e.send ∧ e'.recv = e.recv ∧
    (e.fine → e'.fine)) : Flow K D G e g h (Pure.pure a : M ε α) := by
  intro hfine s
  show Carries K D G e s s (g a)
  cases hga : g a with
  | none => exact (Carries.refl hfine).stop
  | some e' =>
    obtain ⟨h1, h2, h3⟩ := hg e' hga
    have := (Carries.refl (K := K) (D := D) (G := G) (s := s) hfine).fine h3
    rw [← h1, ← h2] at this
    exact this

theorem Flow.fail {b : ε} (hg : ∀ e', h b = some e' → e'.send = e.send ∧ e'.recv = e.recv ∧
    (e.fine → e'.fine)) : Flow K D G e g h (M.fail b : M ε α) := by
  intro hfine s
  show Carries K D G e s s (h b)
  cases hga : h b with
  | none => exact (Carries.refl hfine).stop
  | some e' =>
    obtain ⟨h1, h2, h3⟩ := hg e' hga
    have := (Carries.refl (K := K) (D := D) (G := G) (s := s) hfine).fine h3
    rw [← h1, ← h2] at this
    exact this

theorem Flow.panic : Flow K D G e g h (M.panic : M ε α) := fun hfine _ => (Carries.refl hfine).stop

theorem Flow.getLog : Flow K D G e (fun _ => some e) h (M.getLog : M ε (List Event)) :=
  fun hfine _ => Carries.refl hfine

/-- an event that is not about packets -/
theorem Flow.logEvent {ev : Event} (h1 : Spec.payloads [ev] = []) (h2 : Spec.sentPayloads [ev] = []) :
    Flow K D G e (fun _ => some e) h (M.logEvent ev : M ε Unit) := by
  intro hfine s
  rw [M.logEvent_run]
  refine ⟨[ev], [], [], [], s.rng, rfl, by simp, by simp, ?_, ?_, ?_⟩
  · rw [h2]; exact .nil
  · rw [h1]; exact .nil
  · rintro e' ⟨⟩
    rw [h1, h2]
    exact ⟨by simp, rfl, hfine, rfl, rfl, rfl, rfl⟩

theorem Flow.ite {c : Prop} {_ : Decidable c} {x y : M ε α} (hx : c → Flow K D G e g h x)
    (hy : ¬ c → Flow K D G e g h y) : Flow K D G e g h (if c then x else y) := by
  split_ifs with hc
  · exact hx hc
  · exact hy hc

/-- the requirements hold -/
theorem Flow.assume {x : M ε α} (hx : e.fine → Flow K D G e g h x) : Flow K D G e g h x :=
  fun hf => hx hf hf

end flow

end Nora
