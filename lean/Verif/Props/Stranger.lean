import Verif.Props.Waiting
import Verif.Props.Wire
import Verif.Props.Rfc
/-
C110: how much the server sends to clients that have not been authenticated.
-/
namespace Nora
open R Server

/-! ### sizes of packets -/

/-- a packet with the payload `x`, written with the least padding, has at most 13/11 of the size of any packet
with the payload `p` -/
def Cheap (p x : Bytes) : Prop := ∀ (j : Nat) (pad raw raw' : Bytes), Spec.LeastPad .b8 false x.length j →
  pad.length = j → Spec.PacketOf .b8 false x pad raw → Spec.Framed .b8 false p raw' →
  11 * (raw.length + 16) ≤ 13 * (raw'.length + 16)

theorem framed_length {bs : BlockSize} {w : Bool} {p raw : Bytes} (h : Spec.Framed bs w p raw) :
    ∃ k, raw.length = 5 + p.length + k ∧ Spec.Aligned bs w (1 + p.length + k) := by
  obtain ⟨pad, rfl, -, h, -⟩ := h
  refine ⟨pad.length, ?_, h⟩
  simp [Spec.u32]
  omega

/-- the least padding has at most 11 bytes -/
theorem leastPad_le8 {w : Bool} {n j : Nat} (h : Spec.LeastPad .b8 w n j) : j ≤ 11 := by
  obtain ⟨-, -, h⟩ := h
  have h1 := h (4 + (8 - ((if w then 4 else 0) + (1 + n + 4)) % 8) % 8) (by omega)
    (by unfold Spec.Aligned Spec.blockBytes; simp only; split <;> omega)
  omega

/-- answers of at most 24 bytes are cheap for requests of at least 17 -/
theorem cheap_short {p x : Bytes} (h1 : 17 ≤ p.length) (h2 : x.length ≤ 24) : Cheap p x := by
  intro j pad raw raw' hj hp hr hf
  obtain ⟨k, h3, h4⟩ := framed_length hf
  have h5 := packetOf_length hr
  have h6 := leastPad_le8 hj
  unfold Spec.Aligned Spec.blockBytes at h4
  simp only [Bool.false_eq_true, if_false, Nat.zero_add] at h4
  have h7 : 1 + x.length + j ≤ 32 := by
    have := hj.2.2
    rcases Nat.lt_or_ge 32 (1 + x.length + j) with hgt | hle
    · have ha := hj.2.1
      unfold Spec.Aligned Spec.blockBytes at ha
      simp only [Bool.false_eq_true, if_false, Nat.zero_add] at ha
      have := this (j - 8) (by omega) (by
        unfold Spec.Aligned Spec.blockBytes
        simp only [Bool.false_eq_true, if_false, Nat.zero_add]
        omega)
      omega
    · exact hle
  omega

/-- and so are those that are at least 11 bytes shorter -/
theorem cheap_less {p x : Bytes} (h : x.length + 11 ≤ p.length) : Cheap p x := by
  intro j pad raw raw' hj hp hr hf
  obtain ⟨k, h3, -⟩ := framed_length hf
  have h5 := packetOf_length hr
  have h6 := leastPad_le8 hj
  omega

/-! ### answers to requests -/

/-- each answer follows a request for which it is cheap -/
inductive Frugal : List Event → Prop
  | nil : Frugal []
  | other {e t} : (∀ x, e ≠ .sent x) → Frugal t → Frugal (e :: t)
  | pair {p x m t} : (∀ e ∈ m, (∀ q, e ≠ .received q) ∧ ∀ q, e ≠ .sent q) → Cheap p x → Frugal t →
    Frugal (.received p :: (m ++ .sent x :: t))

theorem Frugal.append {t t' : List Event} (h : Frugal t) (h' : Frugal t') : Frugal (t ++ t') := by
  induction h with
  | nil => exact h'
  | other h1 _ ih => exact .other h1 ih
  | pair h1 h2 _ ih =>
    rw [List.cons_append, List.append_assoc, List.cons_append]
    exact .pair h1 h2 ih

theorem payloads_quiet {m : List Event} (h : ∀ e ∈ m, (∀ q, e ≠ .received q) ∧ ∀ q, e ≠ .sent q) :
    Spec.payloads m = [] ∧ Spec.sentPayloads m = [] := by
  constructor
  · apply List.filterMap_eq_nil_iff.mpr
    intro e he
    cases e <;> first | rfl | exact absurd rfl ((h _ he).1 _)
  · apply List.filterMap_eq_nil_iff.mpr
    intro e he
    cases e <;> first | rfl | exact absurd rfl ((h _ he).2 _)

theorem sealed_length' {K : Crypto} {k : Spec.Keys} {n : Nat} {raw : Bytes} (h : 4 ≤ raw.length) :
    (Spec.sealed K k n raw).length = raw.length + 16 := by
  simp only [Spec.sealed, List.length_append, sealLength_length, sealBody_length, mac_length,
    List.length_take, List.length_drop]
  omega

theorem Frugal.bytes {K : Crypto} {k k' : Spec.Keys} {cut fail cut' : Prop} {t : List Event} (h : Frugal t) :
    ∀ {n n' : Nat} {r r' : Tape} {w u : Bytes}, Spec.Written K k cut fail n r (Spec.sentPayloads t) w r' →
      Spec.Taken K k' cut' n' (Spec.payloads t) u → 11 * w.length ≤ 13 * u.length := by
  induction h with
  | nil =>
    intro n n' r r' w u hw hu
    cases hw
    simp
  | @other e t h1 _ ih =>
    intro n n' r r' w u hw hu
    cases e with
    | sent x => exact absurd rfl (h1 x)
    | received p =>
      cases hu with
      | cons _ _ _ _ hu =>
        have := ih hw hu
        simp only [List.length_append]
        omega
    | probe => exact ih hw hu
    | auth => exact ih hw hu
    | proc => exact ih hw hu
  | @pair p x m t h1 h2 _ ih =>
    intro n n' r r' w u hw hu
    have e1 : Spec.sentPayloads (.received p :: (m ++ .sent x :: t)) = x :: Spec.sentPayloads t := by
      have := (payloads_quiet h1).2
      simp only [Spec.sentPayloads, List.filterMap_cons, List.filterMap_append] at this ⊢
      rw [this]
      rfl
    have e2 : Spec.payloads (.received p :: (m ++ .sent x :: t)) = p :: Spec.payloads t := by
      have := (payloads_quiet h1).1
      simp only [Spec.payloads, List.filterMap_cons, List.filterMap_append] at this ⊢
      rw [this]
      rfl
    rw [e1] at hw
    rw [e2] at hu
    cases hw with
    | cons g1 g2 g3 g4 g5 g6 =>
      cases hu with
      | cons f1 f2 f3 f4 f5 =>
        have a := ih g6 f5
        have b := h2 _ _ _ _ g1 (by simp [Tape.bytes]) g2 f2
        have c := packetOf_length g2
        obtain ⟨_, d, -⟩ := framed_length f2
        simp only [List.length_append, List.length_take]
        rw [sealed_length' (by omega), sealed_length' (by omega)]
        omega

theorem request_length {user service : Bytes} {m : Auth.Method} {p : Bytes}
    (h : Spec.Legal (Spec.request user service m) p) : ∃ t, p.length = 9 + user.length + service.length +
      (Spec.methodBody t m).length := by
  obtain ⟨-, t, -, rfl⟩ := h
  refine ⟨t, ?_⟩
  simp [Spec.encodeT, Spec.request, Spec.body, str_length]
  omega

theorem attempt_length {sid p user service : Bytes} {arg : AuthArg} (h : Spec.Attempt sid p user service arg) :
    17 ≤ p.length := by
  cases h with
  | none h =>
    obtain ⟨t, h⟩ := request_length h
    simp [Spec.methodBody, str_length] at h
    omega
  | password h =>
    obtain ⟨t, h⟩ := request_length h
    simp [Spec.methodBody, str_length] at h
    omega
  | publicKey h =>
    obtain ⟨t, h⟩ := request_length h
    simp [Spec.methodBody, str_length] at h
    omega

theorem Spec.Round.frugal {H : Handlers} {sid : Bytes} {l t : List Event} (h : Spec.Round H sid l t) :
    Frugal t := by
  cases h with
  | known h =>
    refine .pair (m := [_]) (by simp) (cheap_less ?_) .nil
    obtain ⟨t, h⟩ := request_length h
    simp [Spec.methodBody, Spec.boolT, str_length] at h
    simp [Spec.pkOkReply, str_length]
    omega
  | unknown h =>
    refine .pair (m := [_]) (by simp) (cheap_short ?_ (by decide)) .nil
    obtain ⟨t, h⟩ := request_length h
    simp [Spec.methodBody, Spec.boolT, str_length] at h
    omega
  | refused h => exact .pair (m := [_]) (by simp) (cheap_short (attempt_length h) (by decide)) .nil

theorem Spec.Rounds.frugal {H : Handlers} {sid : Bytes} {l t : List Event} (h : Spec.Rounds H sid l t) :
    Frugal t := by
  induction h with
  | nil => exact .nil
  | cons h _ ih => exact h.frugal.append ih

theorem Spec.Accepted.frugal {H : Handlers} {sid : Bytes} {l t : List Event} {u : Nat}
    (h : Spec.Accepted H sid l u t) : Frugal t := by
  cases h with
  | mk h => exact .pair (m := [_]) (by simp) (cheap_short (attempt_length h) (by decide)) .nil

/-- nothing is sent -/
theorem frugal_silent : ∀ {t : List Event}, (∀ x, .sent x ∉ t) → Frugal t
  | [], _ => .nil
  | e :: _, h => .other (fun x hx => h x (by rw [hx]; simp)) (frugal_silent fun x hx => h x (by simp [hx]))

theorem Spec.Final.frugal {H : Handlers} {sid : Bytes} {W O : Prop} {l t : List Event} {r : R Unit Nat}
    (h : Spec.Final H sid W O l r t) : Frugal t := by
  have cut : ∀ {t p}, Spec.Round H sid l (t ++ [.sent p]) → ∀ x, .sent x ∉ t := by
    intro t p h
    generalize hu : t ++ [.sent p] = u at h
    cases h <;> (have := congrArg List.dropLast hu; simp at this; subst this; simp)
  have cut' : ∀ {u t p}, Spec.Accepted H sid l u (t ++ [.sent p]) → ∀ x, .sent x ∉ t := by
    intro u t p h
    generalize hu : t ++ [.sent p] = v at h
    cases h; (have := congrArg List.dropLast hu; simp at this; subst this; simp)
  cases h with
  | accepted h => exact h.frugal
  | roundWrite _ h => exact h.frugal
  | acceptedWrite _ h => exact h.frugal
  | roundOverflow _ h => exact frugal_silent (cut h)
  | acceptedOverflow _ h => exact frugal_silent (cut' h)
  | _ => exact frugal_silent (by simp)

theorem service_frugal {p : Bytes} (h : Spec.ServiceRequested p) : Frugal [.received p, .sent Spec.acceptReply] := by
  refine .pair (m := []) (by simp) (cheap_short ?_ (by decide)) .nil
  obtain ⟨-, t, -, rfl⟩ := h
  simp [Spec.encodeT, Spec.body, str_length]

theorem Spec.Session.frugal {H : Handlers} {sid : Bytes} {W O : Prop} {l t : List Event} {r : R Unit Nat}
    (h : Spec.Session H sid W O l r t) : Frugal t := by
  cases h with
  | serviceWrite _ h => exact service_frugal h
  | served h1 h2 h3 => exact ((service_frugal h1).append h2.frugal).append h3.frugal
  | _ => exact frugal_silent (by simp)

/-! ### connections -/

variable {cfg : Config}

/-- the log of a client that is being authenticated -/
def FrugalInv (s : IoSt) (c : Conn) : Prop :=
  match c.phase with
  | .auth _ _ => ∃ t, c.io.log = s.log ++ t ∧ Frugal t
  | _ => True

theorem frugal_inv (hid : Spec.Fits cfg.ident) (s : IoSt) (as : List Client.Step) :
    FrugalInv s (Spec.alone cfg s as) := by
  induction as using list_snoc_induction with
  | nil => trivial
  | snoc as a ih =>
    have hinv := (alone_inv hid s as).2
    have hlog := log_inv hid s as
    rw [alone_snoc]
    generalize Spec.alone cfg s as = c at ih hinv hlog
    obtain ⟨phase, io⟩ := c
    cases phase with
    | new =>
      unfold Conn.poll
      simp only [Phase.step, M.bind_run, M.mapErr_run]
      rcases hx : Host.handleNewClient cfg.K cfg.ident io with ⟨r, io1⟩
      cases r <;> trivial
    | service cl =>
      replace hlog : io.log = s.log := hlog
      have hst := startSt_ok cl
      unfold Conn.poll
      simp only [step_service, M.bind_run]
      generalize startSt cl = st0 at hst
      have hs := service_ok cfg.K hst io
      rcases hx : Server.service cfg.K st0 io with ⟨r, io1⟩
      rw [hx] at hs
      cases r with
      | ok st =>
        obtain ⟨p, h, h2, _⟩ := hs
        exact ⟨_, by rw [← hlog]; exact h, service_frugal h2⟩
      | err e => trivial
      | panic => trivial
    | auth sid st =>
      obtain ⟨t, h1, h2⟩ := ih
      obtain ⟨g1, g2, _⟩ := hinv
      have hs := attempt_ok cfg.K cfg.H g1 g2 io
      unfold Conn.poll
      simp only [Phase.step, M.bind_run]
      rcases hx : attempt cfg.K cfg.H sid st io with ⟨r, io1⟩
      rw [hx] at hs
      cases r with
      | ok x =>
        cases x with
        | inl st' =>
          obtain ⟨t', h3, h4, _⟩ := hs
          exact ⟨t ++ t', by rw [← List.append_assoc, ← h1]; exact h3, h2.append h4.frugal⟩
        | inr c => trivial
      | err e => trivial
      | panic => trivial
    | session user st =>
      unfold Conn.poll
      simp only [Phase.step, M.bind_run, M.mapErr_run]
      rcases Client.step cfg.K cfg.C user st a io with ⟨r, io1⟩
      cases r with
      | ok x => cases x <;> trivial
      | err e => trivial
      | panic => trivial
    | ended => trivial

/-- the log of a client that has not been authenticated -/
theorem stranger_log (hid : Spec.Fits cfg.ident) {s : IoSt} {as : List Client.Step} {t : List Event}
    (ht : (Spec.alone cfg s as).io.log = s.log ++ t)
    (hno : ∀ user service arg u, .auth user service arg (some u) ∉ t) : Frugal t := by
  have hlog := log_inv hid s as
  have hal := (alone_inv hid s as).1
  have hf := frugal_inv hid s as
  generalize Spec.alone cfg s as = c at hlog hal hf ht
  have no : ∀ {a s1}, authenticateNewClient cfg.K cfg.H cfg.ident s = (ok a, s1) →
      (∃ t', c.io.log = s1.log ++ t') → False := by
    rintro a s1 ha ⟨t', h⟩
    obtain ⟨cl, s0, h1, before, p, user, service, arg, h2, -⟩ :=
      C34_no_bypass cfg.K cfg.H cfg.ident s s1 a hid ha
    rw [h2, ht, List.append_assoc, List.append_assoc] at h
    have := List.append_cancel_left h
    exact hno user service arg a.user (by rw [this]; simp)
  cases hal with
  | busy g1 g2 =>
    rename_i phase io
    cases phase with
    | new =>
      rw [show io.log = s.log from hlog] at ht
      have : t = [] := by simpa using ht
      rw [this]; exact .nil
    | service cl =>
      rw [show io.log = s.log from hlog] at ht
      have : t = [] := by simpa using ht
      rw [this]; exact .nil
    | auth sid st =>
      obtain ⟨t', h2, h3⟩ := hf
      rw [show io.log = s.log ++ t from ht] at h2
      rw [List.append_cancel_left h2]
      exact h3
    | session user st => exact absurd rfl (g1 user st)
    | ended => exact absurd rfl g2
  | refused g1 g2 =>
    rename_i io r
    by_cases hh : ∃ cl s1, Host.handleNewClient cfg.K cfg.ident s = (ok cl, s1)
    · obtain ⟨cl, s1, hh⟩ := hh
      obtain ⟨t', h2, h3⟩ := authenticate_session cfg.H hid hh
      rw [g1, show io.log = s.log ++ t from ht] at h2
      rw [List.append_cancel_left h2]
      exact h3.frugal
    · have := (no_handshake cfg.K cfg.H cfg.ident s (fun cl s1 e => hh ⟨cl, s1, e⟩)).1
      rw [g1, show io.log = s.log ++ t from ht] at this
      have : t = [] := by simpa using this
      rw [this]; exact .nil
  | session g1 g2 => exact (no g1 (let ⟨t, h, _⟩ := session_log g2; ⟨t, h⟩)).elim
  | ended g1 g2 g3 => exact (no g1 (let ⟨t, h, _⟩ := session_log g2; ⟨t, h⟩)).elim

/-- the computation reads some of the input -/
def Eats {ε α : Type} (x : M ε α) : Prop := ∀ s, ∃ v, s.inp = v ++ (x s).2.inp

section eats
variable {ε ε' α β : Type}

theorem Eats.bind {x : M ε α} {f : α → M ε β} (hx : Eats x) (hf : ∀ a, Eats (f a)) : Eats (x >>= f) := by
  intro s
  rw [M.bind_run]
  have h := hx s
  revert h
  rcases x s with ⟨r, s'⟩
  rintro ⟨v, h⟩
  cases r with
  | ok a =>
    obtain ⟨v', h'⟩ := hf a s'
    exact ⟨v ++ v', by rw [h, List.append_assoc, ← h']⟩
  | err e => exact ⟨v, h⟩
  | panic => exact ⟨v, h⟩

theorem Eats.mapErr {x : M ε α} (hx : Eats x) (f : ε → ε') : Eats (x.mapErr f) := hx
theorem Eats.lift (x : R ε α) : Eats (M.lift x) := fun _ => ⟨[], rfl⟩
theorem Eats.pure (x : α) : Eats (pure x : M ε α) := fun _ => ⟨[], rfl⟩
theorem Eats.fail (e : ε) : Eats (M.fail e : M ε α) := fun _ => ⟨[], rfl⟩

theorem Eats.readExact (n : Nat) : Eats (M.readExact n) := by
  intro s
  unfold M.readExact
  split_ifs
  · exact ⟨s.inp.take n, (List.take_append_drop n _).symm⟩
  · exact ⟨s.inp, (List.append_nil _).symm⟩

theorem Eats.writeAll (d : Bytes) : Eats (M.writeAll d) := by
  intro s
  unfold M.writeAll
  split
  · exact ⟨[], rfl⟩
  · split_ifs <;> exact ⟨[], rfl⟩

theorem Eats.withRng (f : Tape → R ε (α × Tape)) : Eats (M.withRng f) := by
  intro s
  unfold M.withRng
  cases f s.rng <;> exact ⟨[], rfl⟩

theorem Eats.ite {c : Prop} {_ : Decidable c} {x y : M ε α} (hx : Eats x) (hy : Eats y) :
    Eats (if c then x else y) := by
  split_ifs <;> assumption

theorem Eats.packet (buf : Bytes) (mode : Bool) (bs : BlockSize) : Eats (PacketIo.parse buf mode bs) := by
  unfold PacketIo.parse
  refine .bind (.lift _) fun _ => .bind (.mapErr (.readExact _) _) fun _ => .bind (.lift _) fun _ =>
    .ite (.fail _) (.ite (.fail _) (.bind (.lift _) fun _ => .bind (.lift _) fun _ =>
      .bind (.mapErr (.readExact _) _) fun _ => .lift _))

theorem Eats.ident : Eats Ident.parse := by
  intro s
  unfold Ident.parse
  cases h : Ident.parseStream s.inp with
  | ok a =>
    obtain ⟨-, q, k, -, h⟩ := C21_sound _ _ _ h
    exact ⟨_, h⟩
  | err e => exact ⟨s.inp, (List.append_nil _).symm⟩
  | panic => exact ⟨[], rfl⟩

end eats

theorem Eats.handshake (K : Crypto) (ident : Bytes) : Eats (Host.handleNewClient K ident) := by
  unfold Host.handleNewClient Host.handshake
  refine .bind ?_ fun _ => .bind ?_ fun _ => .bind ?_ fun _ => .bind ?_ fun _ => .bind ?_ fun _ => .pure _
  · unfold Host.hello Ident.send
    exact .bind (.mapErr (.bind (.writeAll _) fun _ => .writeAll _) _) fun _ => .bind (.withRng _)
      fun _ => .bind (.lift _) fun _ => .bind (.mapErr (.writeAll _) _) fun _ => .pure _
  · unfold Host.receiveHello
    exact .bind (.mapErr .ident _) fun _ => .bind (.lift _) fun _ => .bind (.lift _) fun _ =>
      .bind (.mapErr (.packet _ _ _) _) fun _ => .bind (.lift _) fun _ => .bind (.lift _) fun _ =>
      .bind (.lift _) fun _ => .bind (.lift _) fun _ => .bind (.lift _) fun _ => .bind (.lift _)
      fun _ => .bind (.lift _) fun _ => .ite (.fail _) (.pure _)
  · unfold Host.receiveKey
    exact .bind (.withRng _) fun _ => .bind (.mapErr (.packet _ _ _) _) fun _ => .bind (.lift _)
      fun _ => .bind (.lift _) fun _ => .bind (.lift _) fun _ => .bind (.lift _) fun _ => .pure _
  · unfold Host.sendReply
    exact .bind (.lift _) fun _ => .bind (.lift _) fun _ => .bind (.lift _) fun _ =>
      .bind (.lift _) fun _ => .bind (.lift _) fun _ => .bind (.withRng _) fun _ =>
      .bind (.lift _) fun _ => .bind (.mapErr (.writeAll _) _) fun _ => .bind (.lift _) fun _ =>
      .bind (.lift _) fun _ => .bind (.withRng _) fun _ => .bind (.lift _) fun _ =>
      .bind (.mapErr (.writeAll _) _) fun _ => .pure _
  · unfold Host.receiveNewKeys
    exact .bind (.mapErr (.packet _ _ _) _) fun _ => .bind (.lift _) fun _ => .bind (.lift _)
      fun _ => .lift _

/-- what the handshake sends, at most -/
theorem handshake_bytes (K : Crypto) {ident : Bytes} (hid : Spec.Fits ident) (s : IoSt) :
    ∃ sent, (Host.handleNewClient K ident s).2.out = s.out ++ sent ∧ sent.length ≤ ident.length + 466 := by
  obtain ⟨k0, raw0, h1, h2, ho⟩ := Host.outcome_pad K s hid
  have size : ∀ {n j : Nat}, Spec.LeastPad .b8 true n j → j ≤ 11 ∧ (5 + n + j) % 8 = 0 := by
    intro n j h
    refine ⟨leastPad_le8 h, ?_⟩
    have := h.2.1
    unfold Spec.Aligned Spec.blockBytes at this
    simp only [if_true] at this
    omega
  have e0 := packetOf_length h2
  have p0 := size h1
  rw [kexPayload_length] at e0 p0
  rw [Tape.bytes_length] at e0
  have hT : (ident ++ Spec.crlf ++ raw0).length ≤ ident.length + 186 := by
    simp only [List.length_append, Spec.crlf, List.length_cons, List.length_nil]
    omega
  generalize ident ++ Spec.crlf ++ raw0 = T at ho hT
  have flight : ∀ {id pay secret cp r2 raw1 raw2}, Replied K 65536 ident s id pay secret cp r2 raw1 raw2 →
      (raw1 ++ raw2).length ≤ 280 := by
    intro id pay secret cp r2 raw1 raw2 h
    obtain ⟨j0, j1, j2, -, -, ⟨a1, a2⟩, a3, a4⟩ := h.sends
    have b1 := packetOf_length a2
    have b2 := packetOf_length a4
    rw [Tape.bytes_length] at b1 b2
    have c1 := size a1
    have c2 := size a3
    have d := replyPayload_length K (theHash K ident id pay secret cp) (K.dhPublic_length secret)
    rw [List.length_singleton] at b2
    rw [List.length_append]
    omega
  revert ho
  generalize (Host.handleNewClient K ident s).1 = res
  generalize (Host.handleNewClient K ident s).2 = s'
  intro ho
  have early : s'.out = s.out ++ T → ∃ sent, s'.out = s.out ++ sent ∧ sent.length ≤ ident.length + 466 :=
    fun h => ⟨T, h, by omega⟩
  have late : ∀ {id pay secret cp r2 raw1 raw2}, Replied K 65536 ident s id pay secret cp r2 raw1 raw2 →
      ∀ n, s'.out = s.out ++ T ++ (raw1 ++ raw2).take n →
      ∃ sent, s'.out = s.out ++ sent ∧ sent.length ≤ ident.length + 466 := by
    intro id pay secret cp r2 raw1 raw2 h n e
    refine ⟨_, by rw [e, List.append_assoc], ?_⟩
    have := flight h
    rw [List.length_append, List.length_take]
    omega
  have full : ∀ {id pay secret cp r2 raw1 raw2}, Replied K 65536 ident s id pay secret cp r2 raw1 raw2 →
      s'.out = s.out ++ T ++ (raw1 ++ raw2) →
      ∃ sent, s'.out = s.out ++ sent ∧ sent.length ≤ ident.length + 466 :=
    fun h e => late h _ (by rw [e, List.take_length])
  cases ho with
  | helloWrite n _ _ _ h => exact ⟨_, h, by rw [List.length_take]; omega⟩
  | early _ _ _ h => exact early h
  | window0 _ _ _ _ _ h => exact early h
  | unsupported _ _ _ _ _ _ _ h => exact early h
  | noKey _ _ _ _ _ _ _ _ h => exact early h
  | window1 _ _ _ _ _ _ _ h => exact early h
  | badKey _ _ _ _ _ _ _ _ _ h => exact early h
  | replyWrite _ _ _ _ _ _ _ n _ h _ e => exact late h n e
  | noNewKeys _ _ _ _ _ _ _ _ _ h e => exact full h e
  | window2 _ _ _ _ _ _ _ _ h e => exact full h e
  | badNewKeys _ _ _ _ _ _ _ _ _ _ _ h e => exact full h e
  | otherMessage _ _ _ _ _ _ _ _ _ _ _ h e => exact full h e
  | done _ _ _ _ _ _ _ _ _ _ h e => exact full h e

/-- C110: a client that nobody has let in gets little. In any run of the server, also one that has stopped,
and whether writes succeed or not: as long as a client has not been authenticated, all that has been sent to
it is at most 466 bytes more than the identification of the server, for the handshake, and after it not more
than 13 bytes for each 11 bytes that have been read from it. -/
theorem C110_stranger (cfg : Config) (hid : Spec.Fits cfg.ident) (ops : List Op) (i : Nat) (c : Conn)
    (s : IoSt) (as : List Client.Step) (t : List Event) (hc : (run cfg ops).conns[i]? = some c)
    (ho : Spec.own i ops = some (s, as)) (ht : c.io.log = s.log ++ t)
    (hno : ∀ user service arg u, .auth user service arg (some u) ∉ t) :
    ∃ hello w start got, c.io.out = s.out ++ (hello ++ w) ∧ s.inp = start ++ got ++ c.io.inp ∧
      hello.length ≤ cfg.ident.length + 466 ∧ 11 * w.length ≤ 13 * got.length := by
  obtain ⟨s', as', h1, h⟩ := whole_flow cfg hid ops hc
  obtain ⟨s'', as'', more, h2, hcc, -⟩ := conn_of_run hc
  rw [ho] at h1 h2
  cases h1
  simp only [Option.some.injEq, Prod.mk.injEq] at h2
  obtain ⟨rfl, rfl⟩ := h2
  have hf : Frugal t := stranger_log hid (by rw [← hcc]; exact ht) hno
  obtain ⟨sent, e1, e2⟩ := handshake_bytes cfg.K hid s
  rcases h with ⟨-, h⟩ | ⟨-, r, h3, -⟩ | ⟨cl, s1, t', w, u, v, r', g1, g2, g3, g4, g5, g6, -⟩
  · exact ⟨[], [], [], [], by rw [h]; simp, by rw [h]; simp, by simp, by simp⟩
  · obtain ⟨x, hx⟩ := Eats.handshake cfg.K cfg.ident s
    rw [h3] at e1 hx
    exact ⟨sent, [], x, [], by rw [List.append_nil]; exact e1, by rw [List.append_nil]; exact hx, e2, by simp⟩
  · obtain ⟨x, hx⟩ := Eats.handshake cfg.K cfg.ident s
    rw [g1] at e1 hx
    rw [ht] at g2
    obtain rfl := List.append_cancel_left g2
    refine ⟨sent, w, x, u ++ v, ?_, ?_, e2, ?_⟩
    · rw [g3, show s1.out = s.out ++ sent from e1, List.append_assoc]
    · rw [show s.inp = x ++ s1.inp from hx, g4]
      simp
    · have := hf.bytes g5 g6
      rw [List.length_append]
      omega

/-! ### it cannot be less -/

/-- the shortest request of a client -/
def shortest : Bytes := Spec.encode (Spec.request [] [] .none)

/-- it is made again and again, and refused -/
def refusedTries : Nat → List Event
  | 0 => []
  | n + 1 => [.received shortest, .auth [] [] .none none, .sent Spec.failureReply] ++ refusedTries n

theorem refused_rounds {H : Handlers} (hH : ∀ l, H.authenticate l [] [] .none = err ()) (sid : Bytes) :
    ∀ (n : Nat) (l : List Event), Spec.Rounds H sid l (refusedTries n)
  | 0, _ => .nil
  | n + 1, _ => .cons (.refused (.none (legal_encode ⟨by decide, by decide, trivial⟩)) (hH _))
      (refused_rounds hH sid n _)

theorem refused_payloads : ∀ n, Spec.payloads (refusedTries n) = List.replicate n shortest ∧
    Spec.sentPayloads (refusedTries n) = List.replicate n Spec.failureReply ∧
    ∀ user service arg u, .auth user service arg (some u) ∉ refusedTries n
  | 0 => ⟨rfl, rfl, fun _ _ _ _ h => by cases h⟩
  | n + 1 => by
    obtain ⟨h1, h2, h3⟩ := refused_payloads n
    refine ⟨?_, ?_, fun user service arg u h => ?_⟩
    · rw [refusedTries, payloads_append, h1]; rfl
    · rw [refusedTries, sentPayloads_append, h2]; rfl
    · rw [refusedTries, List.mem_append] at h
      rcases h with h | h
      · simp at h
      · exact h3 _ _ _ _ h

theorem leastPad_eq {n j : Nat} (h : Spec.LeastPad .b8 false n j) : j = 4 + (8 - (n + 5) % 8) % 8 := by
  obtain ⟨h1, h2, h3⟩ := h
  have h4 := h3 (4 + (8 - (n + 5) % 8) % 8) (by omega)
    (by unfold Spec.Aligned Spec.blockBytes; simp only [Bool.false_eq_true, if_false]; omega)
  unfold Spec.Aligned Spec.blockBytes at h2
  simp only [Bool.false_eq_true, if_false] at h2
  omega

theorem written_cons {K : Crypto} {k : Spec.Keys} {n : Nat} {r r' : Tape} {p : Bytes} {ps : List Bytes} {w : Bytes}
    (h : Spec.Written K k False False n r (p :: ps) w r') :
    ∃ n' r1 w', Spec.Written K k False False n' r1 ps w' r' ∧
      w.length = 25 + p.length + (8 - (p.length + 5) % 8) % 8 + w'.length := by
  cases h with
  | @cons n r p j raw m ps w r' g1 g2 g3 g4 g5 g6 =>
    refine ⟨_, _, _, g6, ?_⟩
    have e := packetOf_length g2
    have e' := leastPad_eq g1
    have hm : ¬ m < (Spec.sealed K k n raw).length := fun h => (g5 h).elim id (fun h => h.1)
    rw [sealed_length' (by omega)] at hm
    simp only [List.length_append, List.length_take]
    rw [sealed_length' (by omega)]
    rw [Tape.bytes_length] at e
    omega

theorem written_replicate {K : Crypto} {k : Spec.Keys} {p : Bytes} {r' : Tape} : ∀ {m n : Nat} {r : Tape} {w : Bytes},
    Spec.Written K k False False n r (List.replicate m p) w r' →
      w.length = m * (25 + p.length + (8 - (p.length + 5) % 8) % 8) := by
  intro m
  induction m with
  | zero => intro n r w h; cases h; simp
  | succ m ih =>
    intro n r w h
    obtain ⟨n', r1, w', h1, h2⟩ := written_cons h
    rw [h2, ih h1, Nat.succ_mul]
    omega

/-- C110: and less would not be true. Let the server refuse requests without credentials. A client does the
handshake, asks for the service, and then makes `n` requests without credentials, for the user and the service whose
names are empty; its `n + 1` packets have 44 bytes each. Then there is a run of the server in which it has not been
authenticated, they have been read, and 52 `n` + 44 bytes have been sent to it after the handshake: 13 bytes for
each 11 that were read, but for 8. -/
theorem C110_tight (cfg : Config) (s : IoSt) (n : Nat) (a : Spec.Asked) (sid w rest : Bytes) (k k' : Spec.Keys)
    (hid : Spec.Fits cfg.ident) (hw : s.wcap = none) (hlen : s.inp.length + 4 < 2 ^ 64)
    (hH : ∀ l, cfg.H.authenticate l [] [] .none = err ()) (hs : Spec.Shakes s.inp (.session a w))
    (ha : Spec.Agreed cfg.K cfg.ident s.rng a sid k k')
    (hp : Spec.Arrive cfg.K k 3 (Spec.encode (.serviceRequest ⟨b! "ssh-userauth"⟩) ::
      List.replicate n (Spec.encode (Spec.request [] [] .none))) w rest)
    (hshort : w.length = 44 * (n + 1) + rest.length) :
    ∃ ops i as c t hello x r, (run cfg ops).running = true ∧ Spec.own i ops = some (s, as) ∧
      (run cfg ops).conns[i]? = some c ∧ c.io.log = s.log ++ t ∧
      (∀ user service arg u, .auth user service arg (some u) ∉ t) ∧ c.io.inp = rest ∧
      c.io.out = s.out ++ (hello ++ x) ∧ Spec.Spoke cfg.K cfg.ident s.rng a hello r ∧ x.length = 52 * n + 44 ∧
      11 * x.length + 88 = 13 * (w.length - rest.length) := by
  have hW : Spec.Undecided cfg s.rng s.inp s.log _ rest := .asked hs ha
    (legal_encode (show Spec.Fits _ by decide)) (refused_rounds hH sid n _)
    (by rw [(refused_payloads n).1]; exact hp)
  obtain ⟨m, h1, h2, h3⟩ := hW.messages hid hw hlen
  obtain ⟨g1, g2⟩ := run_solo (cfg := cfg) s (List.replicate m .message) (by intro h; rw [h] at h1; cases h1)
  obtain ⟨hello, x, k2, e1, a2, rest2, sid2, k3, r1, f1, f2, f3, f4⟩ := C103_wire cfg hid _ 0
    (Spec.alone cfg s (List.replicate m .message)) s _ _ (by rw [g1]; rfl) g2 hw
    (by rintro ⟨j, e, h⟩; cases List.eq_of_mem_replicate h)
    (by intro h; rw [h] at h1; cases h1) (by intro h; rw [h] at h1; cases h1) h2
  cases C99_one_outcome _ _ _ hs f1
  rw [sentPayloads_append, (refused_payloads n).2.1] at f4
  obtain ⟨n', r2, x', b1, b2⟩ := written_cons f4
  have b3 := written_replicate b1
  have c1 : Spec.acceptReply.length = 17 := by decide
  have c2 : 25 + Spec.failureReply.length + (8 - (Spec.failureReply.length + 5) % 8) % 8 = 52 := by decide
  rw [c2] at b3
  rw [c1] at b2
  have hx : x.length = 52 * n + 44 := by omega
  refine ⟨_, 0, _, _, _, hello, x, r1, by rw [g1], g2, by rw [g1]; rfl, h2, ?_, h3, e1, f3, hx, by omega⟩
  intro user service arg u h
  rw [List.mem_append] at h
  rcases h with h | h
  · simp at h
  · exact (refused_payloads n).2.2 _ _ _ _ h

/-- the client of C110_tight, with the server of `whole_run` -/
def shortPayloads (n : Nat) : List Bytes :=
  Spec.encode (.serviceRequest ⟨b! "ssh-userauth"⟩) :: List.replicate n (Spec.encode (Spec.request [] [] .none))

theorem short_length : ∀ (n m : Nat),
    (conversation m (List.replicate n (Spec.encode (Spec.request [] [] .none)))).length = 44 * n
  | 0, _ => rfl
  | n + 1, m => by
    rw [List.replicate_succ, conversation, List.length_append, short_length n, sealed_length' (by decide)]
    have : (spkt (Spec.encode (Spec.request [] [] .none))).length = 28 := by decide
    omega

/-- C110: there is such a client of a concrete server, for each `n` up to 10^9. It is not authenticated, not more than
44 `n` + 100044 bytes have been read from it, with the handshake, and it has got 52 `n` + 44. -/
theorem C110_witness (n : Nat) (hn : n ≤ 10 ^ 9) : ∃ s ops i as c t,
    (run wholeConfig ops).conns[i]? = some c ∧ Spec.own i ops = some (s, as) ∧ c.io.log = s.log ++ t ∧
    (∀ user service arg u, .auth user service arg (some u) ∉ t) ∧
    s.inp.length ≤ 44 * n + 100044 + c.io.inp.length ∧ s.out.length + 52 * n + 44 ≤ c.io.out.length := by
  have hps : ∀ p ∈ shortPayloads n, p.length ≤ 30000 := by
    intro p hp
    simp only [shortPayloads, List.mem_cons, List.mem_replicate] at hp
    rcases hp with rfl | ⟨_, rfl⟩ <;> decide
  obtain ⟨c, s1, h1, h2, h3, h4⟩ := flat_session (shortPayloads n) []
  have hs := conversation_stream [] (shortPayloads n) 3 hps
  have hl : (conversation 3 (shortPayloads n)).length = 44 * (n + 1) := by
    rw [shortPayloads, conversation, List.length_append, short_length n, sealed_length' (by decide)]
    have : (spkt (Spec.encode (.serviceRequest ⟨b! "ssh-userauth"⟩))).length = 28 := by decide
    omega
  have hpre : (startBytes false).length + (zpkt (Spec.encode (.kexEcdhInit
      ⟨Crypto.flat.dhPublic [5]⟩))).length + (zpkt (Spec.encode .newKeys)).length ≤ 100000 := by
    decide +kernel
  have hin : (clientState (shortPayloads n) []).inp.length ≤ 44 * n + 100044 := by
    simp only [clientState, List.length_append, List.length_nil]
    omega
  obtain ⟨a, g1, g2⟩ := handshake_shakes (cfg := wholeConfig) (by decide) rfl h1
  rw [h4] at g1
  rw [h2] at g2
  obtain ⟨ops, i, as, d, t, hello, x, r, -, k1, k2, k3, k4, k5, k6, -, k7, -⟩ := C110_tight wholeConfig
    (clientState (shortPayloads n) []) n a _ _ [] _ _ (by decide) rfl (by omega) (fun _ => rfl) g1 g2 hs
    (by rw [List.length_append, hl])
  refine ⟨_, ops, i, as, d, t, k2, k1, k3, k4, by omega, ?_⟩
  rw [k6, List.length_append, List.length_append]
  omega

end Nora
