import Verif.Lemmas.AuthRun
/-
Properties of authentication: C34-C38.
-/
namespace Nora
open R

/-! ### the history of a session -/

section story
variable {P : List Event → Event → Prop} {l a b t pre post : List Event} {e : Event}

theorem Spec.Story.append : Spec.Story P l (a ++ b) ↔ Spec.Story P l a ∧ Spec.Story P (l ++ a) b := by
  induction a generalizing l with
  | nil => simp [Spec.Story]
  | cons x a ih => simp [Spec.Story, ih, and_assoc]

theorem Spec.Story.at (h : Spec.Story P l t) (he : t = pre ++ e :: post) : P (l ++ pre) e ∧ Spec.Story P (l ++ pre ++ [e]) post := by
  rw [he, Spec.Story.append] at h
  exact h.2

end story

theorem reply_ne : Spec.acceptReply ≠ Spec.successReply ∧ Spec.failureReply ≠ Spec.successReply ∧
    ∀ a k, Spec.pkOkReply a k ≠ Spec.successReply := by
  refine ⟨by decide, by decide, fun a k h => ?_⟩
  have := congrArg List.length h
  simp [Spec.pkOkReply, Spec.successReply] at this

theorem snoc_ne (l : List Event) (e : Event) (t : List Event) : l ++ e :: t ≠ l := by
  intro h
  have := congrArg List.length h
  simp at this

theorem snoc3 (l : List Event) (a b c : Event) : l ++ [a, b, c] = (l ++ [a, b]) ++ [c] := by simp

/-- the last event is a reply other than SUCCESS -/
def Ready (l : List Event) : Prop := ∃ l' x, l = l' ++ [.sent x] ∧ x ≠ Spec.successReply

theorem Ready.ne {l : List Event} (h : Ready l) : l ≠ [] := by
  obtain ⟨l', x, rfl, _⟩ := h
  simp

variable {H : Handlers} {sid : Bytes} {l0 l : List Event}

theorem explained_probe {p user service algorithm key : Bytes} {known : Bool} (hr : Ready l)
    (hp : Spec.Probe p user service algorithm key)
    (hh : H.publicKeyExists (l0 ++ l ++ [.received p]) user service algorithm key =
      if known then ok () else err ()) :
    Spec.Story (Spec.Explained H sid l0) l [.received p, .probe user service algorithm key known] :=
  ⟨.inr hr, ⟨_, _, rfl, hr.ne, hp, by rw [← List.append_assoc]; exact hh⟩, trivial⟩

theorem explained_auth {p user service : Bytes} {arg : AuthArg} {r : Option Nat} (hr : Ready l)
    (hp : Spec.Attempt sid p user service arg)
    (hh : H.authenticate (l0 ++ l ++ [.received p]) user service arg =
      Spec.authResult r) :
    Spec.Story (Spec.Explained H sid l0) l [.received p, .auth user service arg r] :=
  ⟨.inr hr, ⟨_, _, rfl, hr.ne, hp, by rw [← List.append_assoc]; exact hh⟩, trivial⟩

theorem Spec.Round.story {t : List Event} (hr : Ready l) (h : Spec.Round H sid (l0 ++ l) t) :
    Spec.Story (Spec.Explained H sid l0) l t ∧ Ready (l ++ t) := by
  cases h with
  | @known p user service algorithm key hp hh hf =>
    refine ⟨(Spec.Story.append (a := [_, _]) (b := [_])).mpr ⟨explained_probe (known := true) hr hp hh,
      .inr (.inl ⟨l ++ [.received p], user, service, algorithm, key, true, by simp, rfl⟩), trivial⟩,
      _, _, snoc3 .., reply_ne.2.2 _ _⟩
  | @unknown p user service algorithm key hp hh =>
    refine ⟨(Spec.Story.append (a := [_, _]) (b := [_])).mpr ⟨explained_probe (known := false) hr hp hh,
      .inr (.inl ⟨l ++ [.received p], user, service, algorithm, key, false, by simp, rfl⟩), trivial⟩,
      _, _, snoc3 .., reply_ne.2.1⟩
  | @refused p user service arg hp hh =>
    refine ⟨(Spec.Story.append (a := [_, _]) (b := [_])).mpr ⟨explained_auth (r := none) hr hp hh,
      .inr (.inr ⟨l ++ [.received p], user, service, arg, none, by simp, rfl⟩), trivial⟩,
      _, _, snoc3 .., reply_ne.2.1⟩

theorem Spec.Rounds.story {t l1 : List Event} (h : Spec.Rounds H sid l1 t) : ∀ {l}, l1 = l0 ++ l →
    Ready l → Spec.Story (Spec.Explained H sid l0) l t ∧ Ready (l ++ t) := by
  induction h with
  | nil => exact fun _ hr => ⟨trivial, by simpa using hr⟩
  | cons h1 _ ih =>
    rintro l rfl hr
    obtain ⟨a, b⟩ := h1.story hr
    obtain ⟨c, d⟩ := ih (List.append_assoc ..) b
    exact ⟨Spec.Story.append.mpr ⟨a, c⟩, by rw [← List.append_assoc]; exact d⟩

theorem Spec.Accepted.story {t : List Event} {u : Nat} (hr : Ready l)
    (h : Spec.Accepted H sid (l0 ++ l) u t) : Spec.Story (Spec.Explained H sid l0) l t := by
  cases h with
  | @mk p user service arg hp hh =>
    exact (Spec.Story.append (a := [_, _]) (b := [_])).mpr ⟨explained_auth (r := some u) hr hp hh,
      .inr (.inr ⟨l ++ [.received p], user, service, arg, some u, by simp, rfl⟩), trivial⟩

theorem Spec.Final.story {t : List Event} {W O : Prop} {r : R Unit Nat} (hr : Ready l)
    (h : Spec.Final H sid W O (l0 ++ l) r t) : Spec.Story (Spec.Explained H sid l0) l t := by
  cases h with
  | lost => trivial
  | malformed h => exact ⟨.inr hr, trivial⟩
  | accepted h => exact h.story hr
  | fatal h => exact ⟨.inr hr, trivial⟩
  | tooLarge h1 h2 h3 => exact explained_probe (known := true) hr h1 h2
  | probePanics h1 h2 => exact ⟨.inr hr, trivial⟩
  | authPanics h1 h2 => exact ⟨.inr hr, trivial⟩
  | roundWrite w h => exact (h.story hr).1
  | acceptedWrite w h => exact h.story hr
  | overflow o => trivial
  | roundOverflow o h => exact (Spec.Story.append.mp (h.story hr).1).1
  | acceptedOverflow o h => exact (Spec.Story.append.mp (h.story hr)).1

theorem ready_accept (p : Bytes) : Ready [.received p, .sent Spec.acceptReply] :=
  ⟨[.received p], _, rfl, reply_ne.1⟩

theorem Spec.Session.story {t : List Event} {W O : Prop} {r : R Unit Nat}
    (h : Spec.Session H sid W O l0 r t) : Spec.Story (Spec.Explained H sid l0) [] t := by
  have two : ∀ {p}, Spec.ServiceRequested p →
      Spec.Story (Spec.Explained H sid l0) [] [.received p, .sent Spec.acceptReply] :=
    fun hp => ⟨.inl rfl, .inl ⟨_, rfl, hp, rfl⟩, trivial⟩
  cases h with
  | noService => trivial
  | otherMessage h => exact ⟨.inl rfl, trivial⟩
  | serviceWrite w h => exact two h
  | serviceOverflow o h => exact ⟨.inl rfl, trivial⟩
  | @served p t r u h1 h2 h3 =>
    obtain ⟨a, b⟩ := h2.story rfl (ready_accept p)
    rw [List.append_assoc, Spec.Story.append, Spec.Story.append]
    rw [List.append_assoc] at h3
    exact ⟨two h1, a, h3.story b⟩

/-- without a completed handshake there is no client and nothing is logged -/
theorem no_handshake (K : Crypto) (H : Handlers) (ident : Bytes) (s : IoSt)
    (h : ∀ c s1, Host.handleNewClient K ident s ≠ (ok c, s1)) :
    (Server.authenticateNewClient K H ident s).2.log = s.log ∧
    (∀ c, (Server.authenticateNewClient K H ident s).1 ≠ ok c) ∧
    ((Server.authenticateNewClient K H ident s).1 = R.panic ↔
      (Host.handleNewClient K ident s).1 = R.panic) := by
  have ht := (Tame.handshake K ident s).1
  rw [Server.authenticateNewClient, M.bind_run, M.mapErr_run]
  revert h ht
  rcases Host.handleNewClient K ident s with ⟨r, s1⟩
  intro h ht
  cases r with
  | ok c => exact absurd rfl (h c s1)
  | err e => exact ⟨ht, fun c h => (nomatch h), by simp [R.mapErr]⟩
  | panic => exact ⟨ht, fun c h => (nomatch h), by simp [R.mapErr]⟩

/-- whatever is logged is explained by what happened before -/
theorem history {K : Crypto} {H : Handlers} {ident : Bytes} {s : IoSt} {t : List Event}
    (hid : Spec.Fits ident) (h : (Server.authenticateNewClient K H ident s).2.log = s.log ++ t)
    (hne : t ≠ []) :
    ∃ c s1, Host.handleNewClient K ident s = (ok c, s1) ∧ c.sessionIdentifier.length = 32 ∧
      Spec.Story (Spec.Explained H c.sessionIdentifier s.log) [] t := by
  by_cases hh : ∃ c s1, Host.handleNewClient K ident s = (ok c, s1)
  · obtain ⟨c, s1, hh⟩ := hh
    obtain ⟨t', h1, h2⟩ := authenticate_session H hid hh
    rw [h] at h1
    rw [List.append_cancel_left h1]
    exact ⟨c, s1, hh, (handshake_session hid hh).2.2.1, h2.story⟩
  · rw [(no_handshake K H ident s (fun c s1 e => hh ⟨c, s1, e⟩)).1] at h
    exact absurd (List.append_cancel_left (h.symm.trans (List.append_nil _).symm)) hne

theorem snoc_inj {a b : List Event} {x y : Event} (h : a ++ [x] = b ++ [y]) : a = b ∧ x = y := by
  simpa using h

theorem after_sent {x : Bytes} {e : Event} (h : Spec.Explained H sid l0 (l ++ [.sent x]) e) :
    (∃ p, e = .received p) ∧ x ≠ Spec.successReply := by
  cases e with
  | proc => exact h.elim
  | received p =>
    rcases h with h | ⟨l', x', h, hx⟩
    · simp at h
    · obtain ⟨_, e⟩ := snoc_inj h
      cases e
      exact ⟨⟨p, rfl⟩, hx⟩
  | probe =>
    obtain ⟨l', p, h, _⟩ := h
    cases (snoc_inj h).2
  | auth =>
    obtain ⟨l', p, h, _⟩ := h
    cases (snoc_inj h).2
  | sent =>
    rcases h with ⟨p, h, _⟩ | ⟨_, _, _, _, _, _, h, _⟩ | ⟨_, _, _, _, _, h, _⟩
    · cases (snoc_inj (b := []) h).2
    · cases (snoc_inj h).2
    · cases (snoc_inj h).2

theorem after_probe {user service algorithm key : Bytes} {known : Bool} {e : Event}
    (h : Spec.Explained H sid l0 (l ++ [.probe user service algorithm key known]) e) :
    e = .sent (if known then Spec.pkOkReply algorithm key else Spec.failureReply) := by
  cases e with
  | proc => exact h.elim
  | received p =>
    rcases h with h | ⟨l', x', h, hx⟩
    · simp at h
    · cases (snoc_inj h).2
  | probe =>
    obtain ⟨l', p, h, _⟩ := h
    cases (snoc_inj h).2
  | auth =>
    obtain ⟨l', p, h, _⟩ := h
    cases (snoc_inj h).2
  | sent =>
    rcases h with ⟨p, h, _⟩ | ⟨_, _, _, _, _, _, h, hx⟩ | ⟨_, _, _, _, _, h, _⟩
    · cases (snoc_inj (b := []) h).2
    · cases (snoc_inj h).2
      rw [hx]
    · cases (snoc_inj h).2

theorem after_auth {user service : Bytes} {arg : AuthArg} {r : Option Nat} {e : Event}
    (h : Spec.Explained H sid l0 (l ++ [.auth user service arg r]) e) :
    e = .sent (Spec.authReply r) := by
  cases e with
  | proc => exact h.elim
  | received p =>
    rcases h with h | ⟨l', x', h, hx⟩
    · simp at h
    · cases (snoc_inj h).2
  | probe =>
    obtain ⟨l', p, h, _⟩ := h
    cases (snoc_inj h).2
  | auth =>
    obtain ⟨l', p, h, _⟩ := h
    cases (snoc_inj h).2
  | sent =>
    rcases h with ⟨p, h, _⟩ | ⟨_, _, _, _, _, _, h, hx⟩ | ⟨_, _, _, _, _, h, hx⟩
    · cases (snoc_inj (b := []) h).2
    · cases (snoc_inj h).2
    · cases (snoc_inj h).2
      rw [hx]

theorem after_received {p : Bytes} {e : Event}
    (h : Spec.Explained H sid l0 (l ++ [.received p]) e) :
    (l = [] ∧ Spec.ServiceRequested p ∧ e = .sent Spec.acceptReply) ∨
    (l ≠ [] ∧ ∃ user service algorithm key known, e = .probe user service algorithm key known ∧
      Spec.Probe p user service algorithm key) ∨
    (l ≠ [] ∧ ∃ user service arg r, e = .auth user service arg r ∧
      Spec.Attempt sid p user service arg) := by
  cases e with
  | proc => exact h.elim
  | received p =>
    rcases h with h | ⟨l', x', h, hx⟩
    · simp at h
    · cases (snoc_inj h).2
  | probe =>
    obtain ⟨l', p, h, hne, hp, _⟩ := h
    obtain ⟨rfl, e⟩ := snoc_inj h
    cases e
    exact .inr (.inl ⟨hne, _, _, _, _, _, rfl, hp⟩)
  | auth =>
    obtain ⟨l', p, h, hne, hp, _⟩ := h
    obtain ⟨rfl, e⟩ := snoc_inj h
    cases e
    exact .inr (.inr ⟨hne, _, _, _, _, rfl, hp⟩)
  | sent =>
    rcases h with ⟨p, h, hp, hx⟩ | ⟨_, _, _, _, _, _, h, hx⟩ | ⟨_, _, _, _, _, h, hx⟩
    · obtain ⟨rfl, e⟩ := snoc_inj (b := []) h
      cases e
      exact .inl ⟨rfl, hp, by rw [hx]⟩
    · cases (snoc_inj h).2
    · cases (snoc_inj h).2

/-- only a panic ends the session between the call of a handler and the reply -/
theorem Spec.Session.last {t t' : List Event} {e : Event} {W O : Prop} {r : R Unit Nat}
    (h : Spec.Session H sid W O l0 r t) (ht : t = t' ++ [e]) (he : ∀ x, e ≠ .sent x)
    (he' : ∀ x, e ≠ .received x) : r = R.panic := by
  cases h with
  | noService => rfl
  | otherMessage h => rfl
  | serviceWrite w h => rfl
  | serviceOverflow o h => rfl
  | @served p t r u h1 h2 h3 =>
    cases h3 with
    | lost =>
      obtain ⟨_, l', x, h5, _⟩ := h2.story rfl (ready_accept p)
      rw [List.append_nil, h5] at ht
      exact absurd (snoc_inj ht).2.symm (he x)
    | malformed h => exact absurd (snoc_inj ht).2.symm (he' _)
    | accepted h =>
      cases h with
      | mk _ _ =>
        rw [snoc3] at ht
        exact absurd (snoc_inj ht).2.symm (he _)
    | _ => rfl

/-! ### C34 no bypass -/

/-- C34: a client is authenticated only if the last thing that happened is: a request was read, the
handler returned Ok for the user, service and credentials in this request, and SUCCESS was sent. The
user of the client is the handler's result. -/
theorem C34_no_bypass (K : Crypto) (H : Handlers) (ident : Bytes) (s s' : IoSt) (a : Authenticated)
    (hid : Spec.Fits ident) (h : Server.authenticateNewClient K H ident s = (ok a, s')) :
    ∃ c s1, Host.handleNewClient K ident s = (ok c, s1) ∧
      ∃ pre p user service arg,
        s'.log = s.log ++ pre ++ [.received p, .auth user service arg (some a.user),
          .sent Spec.successReply] ∧
        Spec.Attempt c.sessionIdentifier p user service arg ∧
        H.authenticate (s.log ++ pre ++ [.received p]) user service arg = ok a.user := by
  by_cases hh : ∃ c s1, Host.handleNewClient K ident s = (ok c, s1)
  · obtain ⟨c, s1, hh⟩ := hh
    refine ⟨c, s1, hh, ?_⟩
    obtain ⟨t, h1, h2⟩ := authenticate_session H hid hh
    rw [h] at h1 h2
    simp only [R.map] at h1 h2
    cases h2 with
    | @served p0 t _ u g1 g2 g3 =>
      cases g3 with
      | accepted g3 =>
        cases g3 with
        | @mk p user service arg k1 k2 =>
          exact ⟨[.received p0, .sent Spec.acceptReply] ++ t, p, user, service, arg,
            by rw [h1]; simp, k1, by simpa using k2⟩
  · have := (no_handshake K H ident s (fun c s1 e => hh ⟨c, s1, e⟩)).2.1 a
    rw [h] at this
    exact absurd rfl this

/-- C34: however the session ends, SUCCESS is sent only directly after the handler returned Ok for the
request just read, and is the last thing that happens. -/
theorem C34_success_sent (K : Crypto) (H : Handlers) (ident : Bytes) (s : IoSt)
    (pre post : List Event) (hid : Spec.Fits ident)
    (h : (Server.authenticateNewClient K H ident s).2.log =
      s.log ++ (pre ++ .sent Spec.successReply :: post)) :
    post = [] ∧ ∃ c s1, Host.handleNewClient K ident s = (ok c, s1) ∧
      ∃ pre' p user service arg u,
        pre = pre' ++ [.received p, .auth user service arg (some u)] ∧
        Spec.Attempt c.sessionIdentifier p user service arg ∧
        H.authenticate (s.log ++ pre' ++ [.received p]) user service arg = ok u := by
  obtain ⟨c, s1, hh, _, hs⟩ := history hid h (by simp)
  obtain ⟨h1, h2⟩ := hs.at rfl
  rw [List.nil_append] at h1 h2
  refine ⟨?_, c, s1, hh, ?_⟩
  · cases post with
    | nil => rfl
    | cons e post => exact absurd rfl (after_sent h2.1).2
  · rcases h1 with ⟨p, he, _, hx⟩ | ⟨_, _, _, a, k, known, he, hx⟩ | ⟨l', user, service, arg, r, rfl, hx⟩
    · exact absurd hx.symm reply_ne.1
    · cases known
      · exact absurd hx.symm reply_ne.2.1
      · exact absurd hx.symm (reply_ne.2.2 _ _)
    · cases r with
      | none => exact absurd hx.symm reply_ne.2.1
      | some u =>
        obtain ⟨pre', p, rfl, _, ha, hr⟩ := (hs.at (pre := l') (post := _) (e := .auth user service arg (some u)) (by simp; rfl)).1
        exact ⟨pre', p, user, service, arg, u, by simp, ha, by simpa [Spec.authResult] using hr⟩

/-! ### C35 signature data -/

/-- C35: what the handler is given for public-key authentication: key and signature taken from blobs
whose algorithm is that of the request, and the data of RFC 4252 section 7 for this session and
request -/
theorem C35_bound (K : Crypto) (H : Handlers) (ident : Bytes) (s : IoSt) (pre post : List Event)
    (user service algorithm key signature message : Bytes) (r : Option Nat) (hid : Spec.Fits ident)
    (h : (Server.authenticateNewClient K H ident s).2.log = s.log ++
      (pre ++ .auth user service (.publicKey algorithm key signature message) r :: post)) :
    ∃ c s1, Host.handleNewClient K ident s = (ok c, s1) ∧
      ∃ pre' p, pre = pre' ++ [.received p] ∧
        Spec.Legal (Spec.request user service (.publicKeySigned algorithm
          (Spec.str algorithm ++ Spec.str key) (Spec.str algorithm ++ Spec.str signature))) p ∧
        message = Spec.signData c.sessionIdentifier user service algorithm
          (Spec.str algorithm ++ Spec.str key) := by
  obtain ⟨c, s1, hh, _, hs⟩ := history hid h (by simp)
  obtain ⟨pre', p, hp, _, ha, _⟩ := (hs.at rfl).1
  refine ⟨c, s1, hh, pre', p, by simpa using hp, ?_⟩
  cases ha with
  | publicKey ha _ => exact ⟨ha, rfl⟩

/-- C35: equal data means equal session, user, service, algorithm and key -/
theorem C35_injective (sid sid' user user' service service' algorithm algorithm' key key' : Bytes)
    (h1 : Spec.Fits sid) (h2 : Spec.Fits user) (h3 : Spec.Fits service) (h4 : Spec.Fits algorithm)
    (h5 : Spec.Fits (Spec.tagged algorithm key))
    (h1' : Spec.Fits sid') (h2' : Spec.Fits user') (h3' : Spec.Fits service')
    (h4' : Spec.Fits algorithm') (h5' : Spec.Fits (Spec.tagged algorithm' key'))
    (h : Spec.signData sid user service algorithm (Spec.tagged algorithm key) =
      Spec.signData sid' user' service' algorithm' (Spec.tagged algorithm' key')) :
    sid = sid' ∧ user = user' ∧ service = service' ∧ algorithm = algorithm' ∧ key = key' := by
  obtain ⟨e1, h⟩ := str_app_inj h1 h1' h
  simp only [List.cons.injEq, true_and, List.append_assoc] at h
  obtain ⟨e2, h⟩ := str_app_inj h2 h2' h
  obtain ⟨e3, h⟩ := str_app_inj h3 h3' h
  have h := List.append_cancel_left h
  simp only [List.cons.injEq, true_and] at h
  obtain ⟨e4, h⟩ := str_app_inj h4 h4' h
  subst e4
  have := str_app_inj h5 h5' (by simpa using h : Spec.str (Spec.tagged algorithm key) ++ [] =
    Spec.str (Spec.tagged algorithm key') ++ [])
  exact ⟨e1, e2, e3, rfl, tagged_inj this.1 (tagged_fits h5) (tagged_fits h5')⟩

/-- C35: in particular no signature made for one session or request is asked to be checked for
another: two calls of the handler, in two sessions or one, with the same message are for the same
session identifier, user, service, algorithm and key -/
theorem C35_sessions (K K' : Crypto) (H H' : Handlers) (ident ident' : Bytes) (s s' : IoSt)
    (pre post pre' post' : List Event)
    (user service algorithm key signature user' service' algorithm' key' signature' message : Bytes)
    (r r' : Option Nat) (hid : Spec.Fits ident) (hid' : Spec.Fits ident')
    (h : (Server.authenticateNewClient K H ident s).2.log = s.log ++
      (pre ++ .auth user service (.publicKey algorithm key signature message) r :: post))
    (h' : (Server.authenticateNewClient K' H' ident' s').2.log = s'.log ++
      (pre' ++ .auth user' service' (.publicKey algorithm' key' signature' message) r' :: post')) :
    ∃ c s1 c' s1', Host.handleNewClient K ident s = (ok c, s1) ∧
      Host.handleNewClient K' ident' s' = (ok c', s1') ∧
      c.sessionIdentifier = c'.sessionIdentifier ∧ user = user' ∧ service = service' ∧
      algorithm = algorithm' ∧ key = key' := by
  obtain ⟨c, s1, hh, _, p, _, hl, hm⟩ := C35_bound K H ident s _ _ _ _ _ _ _ _ _ hid h
  obtain ⟨c', s1', hh', _, p', _, hl', hm'⟩ := C35_bound K' H' ident' s' _ _ _ _ _ _ _ _ _ hid' h'
  have e := (handshake_session hid hh).2.2.1
  have e' := (handshake_session hid' hh').2.2.1
  obtain ⟨f1, f2, f3, f4, _⟩ := hl.fits
  obtain ⟨f1', f2', f3', f4', _⟩ := hl'.fits
  exact ⟨c, s1, c', s1', hh, hh', C35_injective _ _ _ _ _ _ _ _ _ _ (by rw [Spec.Fits, e]; omega)
    f1 f2 f3 f4 (by rw [Spec.Fits, e']; omega) f1' f2' f3' f4' (hm.symm.trans hm')⟩

/-- data for two users -/
example : Spec.signData [1] (b! "root") (b! "ssh-connection") (b! "ssh-ed25519") [7] ≠
    Spec.signData [1] (b! "roots") (b! "sh-connection") (b! "ssh-ed25519") [7] := by decide

/-! ### C36 probes -/

/-- C36: a probe is answered according to the handler's result: PK_OK with the algorithm and blob of
the probe, or FAILURE. If there is no answer the server has panicked (see C38). -/
theorem C36_answer (K : Crypto) (H : Handlers) (ident : Bytes) (s : IoSt) (pre post : List Event)
    (user service algorithm key : Bytes) (known : Bool) (hid : Spec.Fits ident)
    (h : (Server.authenticateNewClient K H ident s).2.log = s.log ++
      (pre ++ .probe user service algorithm key known :: post)) :
    (∃ pre' p, pre = pre' ++ [.received p] ∧ Spec.Probe p user service algorithm key) ∧
    H.publicKeyExists (s.log ++ pre) user service algorithm key =
      (if known then ok () else err ()) ∧
    ((∃ post', post = .sent (if known then
        60 :: (Spec.str algorithm ++ Spec.str (Spec.str algorithm ++ Spec.str key))
        else Spec.failureReply) :: post') ∨
      (post = [] ∧ (Server.authenticateNewClient K H ident s).1 = R.panic)) := by
  obtain ⟨c, s1, hh, _, hs⟩ := history hid h (by simp)
  obtain ⟨⟨pre', p, hp, _, ha, hr⟩, h2⟩ := hs.at rfl
  rw [List.nil_append] at hp hr h2
  refine ⟨⟨pre', p, hp, ha⟩, hr, ?_⟩
  cases post with
  | nil =>
    right
    refine ⟨rfl, ?_⟩
    obtain ⟨t, g1, g2⟩ := authenticate_session H hid hh
    rw [h] at g1
    have := g2.last (List.append_cancel_left g1).symm (fun x h => by cases h) (fun x h => by cases h)
    cases hx : (Server.authenticateNewClient K H ident s).1 with
    | ok a => rw [hx] at this; cases this
    | err a => rw [hx] at this; cases this
    | panic => rfl
  | cons e post => exact .inl ⟨post, by rw [after_probe h2.1]; rfl⟩

/-- C36: a probe is not an authentication attempt -/
theorem C36_disjoint (sid p user service algorithm key user' service' : Bytes) (arg : AuthArg)
    (hp : Spec.Probe p user service algorithm key) : ¬ Spec.Attempt sid p user' service' arg := by
  exact fun h => h.not_probe hp

/-- C36: the handler for authentication is not called for a probe, only the other one, with what is in
the probe -/
theorem C36_no_auth (K : Crypto) (H : Handlers) (ident : Bytes) (s : IoSt) (pre post : List Event)
    (e : Event) (p user service algorithm key : Bytes) (hid : Spec.Fits ident)
    (hp : Spec.Probe p user service algorithm key)
    (h : (Server.authenticateNewClient K H ident s).2.log = s.log ++
      (pre ++ .received p :: e :: post)) :
    ∃ known, e = .probe user service algorithm key known := by
  obtain ⟨c, s1, hh, _, hs⟩ := history hid h (by simp)
  obtain ⟨_, h2⟩ := hs.at rfl
  rcases after_received h2.1 with ⟨_, h3, _⟩ | ⟨_, _, _, _, _, known, rfl, h3⟩ | ⟨_, _, _, _, _, rfl, h3⟩
  · cases Spec.Legal.unique rfl rfl hp h3
  · obtain ⟨rfl, rfl, rfl, rfl⟩ := Spec.Probe.unique hp h3
    exact ⟨known, rfl⟩
  · exact absurd h3 (C36_disjoint _ _ _ _ _ _ _ _ _ hp)

/-- C36: the last request before a client is authenticated is never a probe -/
theorem C36_not_last (K : Crypto) (H : Handlers) (ident : Bytes) (s s' : IoSt) (a : Authenticated)
    (pre rest : List Event) (p user service algorithm key : Bytes)
    (hid : Spec.Fits ident) (h : Server.authenticateNewClient K H ident s = (ok a, s'))
    (hl : s'.log = s.log ++ (pre ++ .received p :: rest)) (hr : ∀ q, .received q ∉ rest) :
    ¬ Spec.Probe p user service algorithm key := by
  obtain ⟨c, s1, _, pre', q, user', service', arg, h1, h2, _⟩ := C34_no_bypass K H ident s s' a hid h
  rw [hl] at h1
  rw [List.append_assoc] at h1
  have h1 := List.append_cancel_left h1
  intro hp
  rcases List.append_eq_append_iff.mp h1 with ⟨x, e1, e2⟩ | ⟨x, e1, e2⟩
  · cases x with
    | nil =>
      simp only [List.nil_append, List.cons.injEq, Event.received.injEq] at e2
      rw [e2.1] at hp
      exact C36_disjoint _ _ _ _ _ _ _ _ _ hp h2
    | cons y x =>
      simp only [List.cons_append, List.cons.injEq] at e2
      exact hr q (by rw [e2.2]; simp)
  · cases x with
    | nil =>
      simp only [List.nil_append, List.cons.injEq, Event.received.injEq] at e2
      rw [← e2.1] at hp
      exact C36_disjoint _ _ _ _ _ _ _ _ _ hp h2
    | cons y x =>
      simp only [List.cons_append, List.cons.injEq] at e2
      obtain ⟨_, e2⟩ := e2
      rcases x with _ | ⟨y1, x⟩
      · cases e2
      · simp only [List.cons_append, List.cons.injEq] at e2
        obtain ⟨_, e2⟩ := e2
        rcases x with _ | ⟨y2, x⟩
        · cases e2
        · simp at e2

/-! ### C37 one reply each -/

/-- C37: a packet received is the last one, or it was answered once, according to what it asks and the
result of the handler, before the next was read -/
theorem C37_one_reply (K : Crypto) (H : Handlers) (ident : Bytes) (s : IoSt) (pre post : List Event)
    (p : Bytes) (hid : Spec.Fits ident)
    (h : (Server.authenticateNewClient K H ident s).2.log = s.log ++ (pre ++ .received p :: post)) :
    ∃ c s1, Host.handleNewClient K ident s = (ok c, s1) ∧
    ((∀ q, .received q ∉ post) ∨
    (∃ q post',
      (pre = [] ∧ Spec.ServiceRequested p ∧
        post = .sent Spec.acceptReply :: .received q :: post') ∨
      (∃ user service algorithm key known, Spec.Probe p user service algorithm key ∧
        post = .probe user service algorithm key known ::
          .sent (if known then Spec.pkOkReply algorithm key else Spec.failureReply) ::
          .received q :: post') ∨
      (∃ user service arg, Spec.Attempt c.sessionIdentifier p user service arg ∧
        post = .auth user service arg none :: .sent Spec.failureReply :: .received q :: post'))) := by
  obtain ⟨c, s1, hh, _, hs⟩ := history hid h (by simp)
  obtain ⟨_, h2⟩ := hs.at rfl
  rw [List.nil_append] at h2
  refine ⟨c, s1, hh, ?_⟩
  rcases post with _ | ⟨e, post⟩
  · exact .inl (by simp)
  obtain ⟨h3, h4⟩ := h2
  rcases after_received h3 with ⟨g1, g2, rfl⟩ | ⟨_, user, service, algorithm, key, known, rfl, g2⟩ |
    ⟨_, user, service, arg, r, rfl, g2⟩
  · rcases post with _ | ⟨e, post⟩
    · exact .inl (by simp)
    obtain ⟨⟨q, rfl⟩, _⟩ := after_sent h4.1
    exact .inr ⟨q, post, .inl ⟨g1, g2, rfl⟩⟩
  · rcases post with _ | ⟨e, post⟩
    · exact .inl (by simp)
    obtain rfl := after_probe h4.1
    rcases post with _ | ⟨e, post⟩
    · exact .inl (by simp)
    obtain ⟨⟨q, rfl⟩, _⟩ := after_sent h4.2.1
    exact .inr ⟨q, post, .inr (.inl ⟨_, _, _, _, _, g2, rfl⟩)⟩
  · rcases post with _ | ⟨e, post⟩
    · exact .inl (by simp)
    obtain rfl := after_auth h4.1
    rcases post with _ | ⟨e, post⟩
    · exact .inl (by simp)
    obtain ⟨⟨q, rfl⟩, hne⟩ := after_sent h4.2.1
    cases r with
    | some u => exact absurd rfl hne
    | none => exact .inr ⟨q, post, .inr (.inr ⟨_, _, _, g2, rfl⟩)⟩

/-- C37: the whole history of a client that is authenticated: the service request and its answer, any
number of refused requests and probes with their answers, the accepted request and SUCCESS -/
theorem C37_authenticated (K : Crypto) (H : Handlers) (ident : Bytes) (s s' : IoSt)
    (a : Authenticated) (hid : Spec.Fits ident)
    (h : Server.authenticateNewClient K H ident s = (ok a, s')) :
    ∃ c s1 p t u, Host.handleNewClient K ident s = (ok c, s1) ∧
      s'.log = s.log ++ [.received p, .sent Spec.acceptReply] ++ t ++ u ∧
      Spec.ServiceRequested p ∧
      Spec.Rounds H c.sessionIdentifier (s.log ++ [.received p, .sent Spec.acceptReply]) t ∧
      Spec.Accepted H c.sessionIdentifier (s.log ++ [.received p, .sent Spec.acceptReply] ++ t)
        a.user u := by
  by_cases hh : ∃ c s1, Host.handleNewClient K ident s = (ok c, s1)
  · obtain ⟨c, s1, hh⟩ := hh
    obtain ⟨t, h1, h2⟩ := authenticate_session H hid hh
    rw [h] at h1 h2
    simp only [R.map] at h1 h2
    cases h2 with
    | @served p0 t _ u g1 g2 g3 =>
      cases g3 with
      | accepted g3 => exact ⟨c, s1, p0, t, u, hh, by rw [h1]; simp, g1, g2, g3⟩
  · have := (no_handshake K H ident s (fun c s1 e => hh ⟨c, s1, e⟩)).2.1 a
    rw [h] at this
    exact absurd rfl this

/-- the replies are the messages they are said to be -/
theorem C37_replies :
    Spec.Legal (.userAuth (.failure ⟨⟨b! "publickey,password"⟩, false⟩)) Spec.failureReply ∧
    Spec.Legal (.userAuth .success) Spec.successReply ∧
    Spec.Legal (.serviceAccept ⟨b! "ssh-userauth"⟩) Spec.acceptReply := by
  refine ⟨⟨⟨by decide, [b! "publickey", b! "password"], by decide, by decide⟩, 1, by decide, rfl⟩,
    ⟨trivial, 1, by decide, rfl⟩, ⟨show Spec.Fits _ by decide, 1, by decide, rfl⟩⟩

/-- C37: a client is served: if after the handshake it asks for the service, then makes requests and
probes that are refused or answered, and then one that is accepted, it gets these answers and is
authenticated; what it sent afterwards is left in the stream. The premises are that the stream
consists of these packets, sealed with the client's keys, that writes succeed and that the packet
counters are not exhausted. -/
theorem C37_served (K : Crypto) (H : Handlers) (ident : Bytes) (s s1 : IoSt) (c : HostClient)
    (p0 rest : Bytes) (t a : List Event) (u : Nat) (hid : Spec.Fits ident)
    (h : Host.handleNewClient K ident s = (ok c, s1)) (hw : s.wcap = none)
    (hlen : s.inp.length + 4 < 2 ^ 64) (hp0 : Spec.ServiceRequested p0)
    (hr : Spec.Rounds H c.sessionIdentifier (s.log ++ [.received p0, .sent Spec.acceptReply]) t)
    (ha : Spec.Accepted H c.sessionIdentifier
      (s.log ++ [.received p0, .sent Spec.acceptReply] ++ t) u a)
    (hi : Spec.Arrive K (Spec.keysOf c.receiveCipher) 3
      (Spec.payloads ([.received p0, .sent Spec.acceptReply] ++ t ++ a)) s1.inp rest) :
    ∃ client s', Server.authenticateNewClient K H ident s = (ok client, s') ∧
      client.user = u ∧ s'.log = s.log ++ [.received p0, .sent Spec.acceptReply] ++ t ++ a ∧
      s'.inp = rest ∧
      Spec.keysOf client.receive = Spec.keysOf c.receiveCipher ∧
      client.receive.counter.toNat = 5 + (Spec.payloads t).length ∧
      Spec.keysOf client.send = Spec.keysOf c.sendCipher ∧
      client.send.counter.toNat = 5 + (Spec.payloads t).length ∧ s'.wcap = none := by
  obtain ⟨p, a', e1, e2, _⟩ := ha.start
  rw [payloads_append, e2] at hi
  obtain ⟨m, hi1, hi2⟩ := hi.append
  obtain ⟨st, s2, g1, g2, g3, g4, g5, g6, g7, g8, g9, g10, hsid⟩ := session_run hid h hw hlen hp0 hr hi1
  have e3 : 3 + (Spec.payloads ([.received p0, .sent Spec.acceptReply] ++ t)).length =
      st.receive.counter.toNat := by
    rw [g8, payloads_append]
    simp only [Spec.payloads, List.filterMap_cons, List.filterMap_nil, List.length_append,
      List.length_cons, List.length_nil]
    omega
  rw [← g7, e3, ← g6] at hi2
  obtain ⟨c', buf', s3, k1, k2, k3, k4⟩ := hi2.recv g3.pkt (by have := g5.2; omega)
  rw [e1, ← g2] at ha
  obtain ⟨b, s4, m1, m2, m3, m4, m5, m6, m7, m8⟩ := attempt_accepted hsid g3 k1 g4 g5 ha
  refine ⟨b, s4, ?_, m3, by rw [m2, g2, e1], by rw [m5]; exact k4, by rw [m6, k2, g7], by rw [m6, k3, g8]; omega,
    by rw [m7, g9], by rw [m8, g10]; omega, m4⟩
  rw [g1, Server.loop_eq K H hsid g3, M.bind_ok m1]
  rfl

/-! ### C38 no panics -/

/-- the handlers do not panic -/
def Calm (H : Handlers) : Prop :=
  (∀ l u v a k, H.publicKeyExists l u v a k ≠ R.panic) ∧ ∀ l u v a, H.authenticate l u v a ≠ R.panic

/-- C38 in full: whatever a client sends after the handshake, the server does not panic; even with
handlers that do not panic, a connection that can be written to, and less than 2^64 bytes of input -/
def C38_statement : Prop :=
  ∀ (K : Crypto) (H : Handlers) (ident : Bytes) (s s1 : IoSt) (c : HostClient), Spec.Fits ident →
    Host.handleNewClient K ident s = (ok c, s1) → Calm H → s.wcap = none →
    s.inp.length + 4 < 2 ^ 64 → (Server.authenticateNewClient K H ident s).1 ≠ R.panic

theorem rounds_split {H : Handlers} {sid : Bytes} {l t1 : List Event}
    (h1 : Spec.Rounds H sid l t1) : ∀ {t2 u1 u2 : List Event}, Spec.Rounds H sid l t2 →
    t1 ++ u1 = t2 ++ u2 → 0 < u1.length → u1.length < 3 → u2.length ≤ 3 → t1 = t2 ∧ u1 = u2 := by
  induction h1 with
  | nil =>
    intro t2 u1 u2 h2 he _ _ _
    cases h2 with
    | nil => exact ⟨rfl, he⟩
    | cons hr _ =>
      obtain ⟨_, _, _, _, hl⟩ := hr.start
      have := congrArg List.length he
      simp at this
      omega
  | cons hr1 _ ih =>
    intro t2 u1 u2 h2 he _ _ _
    obtain ⟨_, _, _, _, hl⟩ := hr1.start
    cases h2 with
    | nil =>
      have := congrArg List.length he
      simp at this
      omega
    | cons hr2 h2 =>
      obtain ⟨_, _, _, _, hl2⟩ := hr2.start
      rw [List.append_assoc, List.append_assoc] at he
      obtain ⟨e1, e2⟩ := List.append_inj he (by omega)
      subst e1
      obtain ⟨e3, e4⟩ := ih h2 e2 (by omega) (by omega) (by omega)
      exact ⟨by rw [e3], e4⟩

/-- The part of C38 that holds: with such handlers and connection the server panics exactly for the
histories of `Spec.PanicHistory`: the first packet cannot be received or is not the service request, a
later one is not about authentication, asks for a method not implemented, has too much data to be
signed, or is a probe for a key that is known and too large. Everything else is survived. -/
theorem C38_panics_partial (K : Crypto) (H : Handlers) (ident : Bytes) (s s1 : IoSt) (c : HostClient)
    (hid : Spec.Fits ident) (h : Host.handleNewClient K ident s = (ok c, s1)) (hH : Calm H)
    (hw : s.wcap = none) (hlen : s.inp.length + 4 < 2 ^ 64) :
    (Server.authenticateNewClient K H ident s).1 = R.panic ↔
      ∃ t, (Server.authenticateNewClient K H ident s).2.log = s.log ++ t ∧
        Spec.PanicHistory H c.sessionIdentifier s.log t := by
  obtain ⟨t, h1, h2⟩ := authenticate_session H hid h
  generalize Server.authenticateNewClient K H ident s = x at h1 h2 ⊢
  constructor
  · intro hx
    refine ⟨t, h1, ?_⟩
    rw [hx] at h2
    simp only [R.map] at h2
    cases h2 with
    | noService => exact .noService
    | otherMessage h => exact .otherMessage h
    | serviceWrite w => exact absurd hw w
    | serviceOverflow o => omega
    | served g1 g2 g3 =>
      cases g3 with
      | fatal g => exact .fatal g1 g2 g
      | tooLarge k1 k2 k3 => exact .tooLarge g1 g2 k1 k2 k3
      | probePanics _ k => exact absurd k (hH.1 _ _ _ _ _)
      | authPanics _ k => exact absurd k (hH.2 _ _ _ _)
      | roundWrite w => exact absurd hw w
      | acceptedWrite w => exact absurd hw w
      | overflow o => omega
      | roundOverflow o => omega
      | acceptedOverflow o => omega
  · rintro ⟨t', h3, h4⟩
    rw [h1] at h3
    rw [← List.append_cancel_left h3] at h4
    have key : x.1.map (·.user) = R.panic := by
      generalize x.1.map (·.user) = r at h2
      cases h2 with
      | noService => rfl
      | otherMessage h => rfl
      | serviceWrite w => rfl
      | serviceOverflow o => rfl
      | @served p t r u g1 g2 g3 =>
        have hu : r ≠ R.panic → u.length ≤ 3 := by
          intro hr
          cases g3 with
          | lost => simp
          | malformed => simp
          | accepted g => cases g; simp
          | _ => exact absurd rfl hr
        refine Classical.byContradiction fun hr => ?_
        have hu := hu hr
        generalize hT : [Event.received p, .sent Spec.acceptReply] ++ t ++ u = T at h4
        cases h4 with
        | noService => simp at hT
        | otherMessage h => simp at hT
        | @fatal p0 t' q k1 k2 k3 =>
          rw [List.append_assoc, List.append_assoc] at hT
          obtain ⟨e1, e2⟩ := List.append_inj hT rfl
          cases e1
          obtain ⟨rfl, rfl⟩ := rounds_split k2 g2 e2.symm (by simp) (by simp) hu
          cases g3 with
          | malformed g => exact k3.not_malformed g
          | accepted g => cases g
          | _ => exact hr rfl
        | @tooLarge p0 t' q user service algorithm key k1 k2 k3 k4 k5 =>
          rw [List.append_assoc, List.append_assoc] at hT
          obtain ⟨e1, e2⟩ := List.append_inj hT rfl
          cases e1
          obtain ⟨rfl, rfl⟩ := rounds_split k2 g2 e2.symm (by simp) (by simp) hu
          cases g3 with
          | accepted g => cases g
          | _ => exact hr rfl
    obtain ⟨r, s'⟩ := x
    cases r with
    | ok a => cases key
    | err a => cases key
    | panic => rfl

/-- a client that disconnects after the handshake -/
theorem service_disconnect (K : Crypto) (s1 : IoSt) (c : HostClient) (hl : s1.inp.length < 20) :
    ∃ s2, Server.service K (startSt c) s1 = (R.panic, s2) := by
  have hst := startSt_ok c
  generalize startSt c = st at hst
  rw [Server.service]
  rcases In.recv_outcome K st.receive st.pktBuf s1 (by rw [hst.pkt]; omega) with ⟨e, i, g⟩ |
    ⟨_, i, g⟩ | ⟨_, q, c2, buf2, i, g, hi, _⟩
  · exact ⟨_, M.bind_panic (s' := { s1 with inp := i }) (by rw [M.unwrap_run, g]; rfl)⟩
  · exact ⟨_, M.bind_panic (s' := { s1 with inp := i }) (by rw [M.unwrap_run, g]; rfl)⟩
  · omega

/-- cause 1: a client that disconnects after the handshake -/
theorem C38_refuted_disconnect (K : Crypto) (H : Handlers) (ident : Bytes) (s s1 : IoSt)
    (c : HostClient) (h : Host.handleNewClient K ident s = (ok c, s1)) (hl : s1.inp.length < 20) :
    (Server.authenticateNewClient K H ident s).1 = R.panic := by
  rw [Server.authenticateNewClient, M.bind_ok (a := c) (s' := s1) (by rw [M.mapErr_run, h]; rfl)]
  obtain ⟨s2, hs⟩ := service_disconnect K s1 c hl
  rw [startSt] at hs
  rw [M.bind_panic hs]

/-- after any number of requests, a packet for which the server panics -/
theorem session_panic (K : Crypto) (H : Handlers) (ident : Bytes) (s s1 : IoSt) (c : HostClient)
    (p0 p rest : Bytes) (t : List Event) (hid : Spec.Fits ident)
    (h : Host.handleNewClient K ident s = (ok c, s1)) (hw : s.wcap = none)
    (hlen : s.inp.length + 4 < 2 ^ 64) (hp0 : Spec.ServiceRequested p0)
    (hr : Spec.Rounds H c.sessionIdentifier (s.log ++ [.received p0, .sent Spec.acceptReply]) t)
    (hi : Spec.Arrive K (Spec.keysOf c.receiveCipher) 3
      (Spec.payloads ([.received p0, .sent Spec.acceptReply] ++ t) ++ [p]) s1.inp rest)
    {t' : List Event}
    (hf : Spec.Final H c.sessionIdentifier False False
      (s.log ++ [.received p0, .sent Spec.acceptReply] ++ t) R.panic (.received p :: t')) :
    (Server.authenticateNewClient K H ident s).1 = R.panic := by
  obtain ⟨m, hi1, hi2⟩ := hi.append
  obtain ⟨st, s2, g1, g2, g3, g4, g5, g6, g7, g8, g9, g10, hsid⟩ := session_run hid h hw hlen hp0 hr hi1
  have e3 : 3 + (Spec.payloads ([.received p0, .sent Spec.acceptReply] ++ t)).length =
      st.receive.counter.toNat := by
    rw [g8, payloads_append]
    simp only [Spec.payloads, List.filterMap_cons, List.filterMap_nil, List.length_append,
      List.length_cons, List.length_nil]
    omega
  rw [← g7, e3, ← g6] at hi2
  obtain ⟨c', buf', s3, k1, k2, k3, k4⟩ := hi2.recv g3.pkt (by have := g5.2; omega)
  rw [← g2] at hf
  have := attempt_panic hsid g3 k1 g4 g5 hf
  rw [g1, Server.loop_eq K H hsid g3, M.bind_run]
  revert this
  rcases Server.attempt K H c.sessionIdentifier st s2 with ⟨r, s'⟩
  rintro rfl
  rfl

/-- the others: after any number of requests, a message that is not about authentication, a method
not implemented, too much data to be signed, a probe with a large key -/
theorem C38_refuted_packet (K : Crypto) (H : Handlers) (ident : Bytes) (s s1 : IoSt) (c : HostClient)
    (p0 p rest : Bytes) (t : List Event) (hid : Spec.Fits ident)
    (h : Host.handleNewClient K ident s = (ok c, s1)) (hw : s.wcap = none)
    (hlen : s.inp.length + 4 < 2 ^ 64) (hp0 : Spec.ServiceRequested p0)
    (hr : Spec.Rounds H c.sessionIdentifier (s.log ++ [.received p0, .sent Spec.acceptReply]) t)
    (hi : Spec.Arrive K (Spec.keysOf c.receiveCipher) 3
      (Spec.payloads ([.received p0, .sent Spec.acceptReply] ++ t) ++ [p]) s1.inp rest)
    (hp : Spec.Fatal c.sessionIdentifier p ∨ ∃ user service algorithm key,
      Spec.Probe p user service algorithm key ∧
      H.publicKeyExists (s.log ++ [.received p0, .sent Spec.acceptReply] ++ t ++ [.received p]) user
        service algorithm key = ok () ∧
      ¬ Spec.FitsBuf 256 (Spec.pkOkReply algorithm key).length) :
    (Server.authenticateNewClient K H ident s).1 = R.panic := by
  rcases hp with hp | ⟨_, _, _, _, h1, h2, h3⟩
  · exact session_panic K H ident s s1 c p0 p rest t hid h hw hlen hp0 hr hi (.fatal hp)
  · exact session_panic K H ident s s1 c p0 p rest t hid h hw hlen hp0 hr hi (.tooLarge h1 h2 h3)

/-! ### concrete clients -/

/-- a checksum that is easy to find in a stream: a mark, the length of the message and 8 bytes that depend
on the key and the message -/
def markedTag (k m : Bytes) : Bytes :=
  b! "poly" ++ Spec.u32 m.length ++ Spec.u64 ((k ++ m).foldl (fun a b => (a * 257 + b.toNat + 1) % 2 ^ 64) 0)

/-- primitives with a constant hash, so that the keys are known -/
def Crypto.flat : Crypto :=
  { Crypto.trivial with
    hash := fun _ => List.replicate 32 7, hash_length := by simp
    poly := markedTag, poly_length := fun _ _ => rfl }

def flatKeys : Spec.Keys := ⟨List.replicate 32 7, List.replicate 32 7⟩

/-- a packet with zero padding, to be sealed -/
def spkt (p : Bytes) : Bytes :=
  let k := 4 + (8 - (p.length + 5) % 8) % 8
  Spec.u32 (1 + p.length + k) ++ (UInt8.ofNat k :: (p ++ List.replicate k 0))

theorem spkt_of {p : Bytes} (h : p.length ≤ 30000) :
    (∃ padding, Spec.PacketOf .b8 false p padding (spkt p)) ∧ (spkt p).length + 16 ≤ 35000 := by
  refine ⟨⟨List.replicate (4 + (8 - (p.length + 5) % 8) % 8) 0, ?_, ?_, ?_, ?_, ?_⟩, ?_⟩
  · rw [List.length_replicate]; rfl
  all_goals first
    | (rw [List.length_replicate]; omega)
    | (rw [List.length_replicate]; show (0 + (1 + p.length + _)) % 8 = 0; omega)
    | (simp only [spkt]; len)

/-- sealed packets with these payloads -/
def conversation : Nat → List Bytes → Bytes
  | _, [] => []
  | n, p :: ps => Spec.sealed .flat flatKeys n (spkt p) ++ conversation (n + 1) ps

theorem conversation_stream (rest : Bytes) : ∀ (ps : List Bytes) (n : Nat),
    (∀ p ∈ ps, p.length ≤ 30000) →
    Spec.Arrive .flat flatKeys n ps (conversation n ps ++ rest) rest := by
  intro ps
  induction ps with
  | nil => exact fun n _ => rfl
  | cons p ps ih =>
    intro n h
    obtain ⟨⟨padding, h1⟩, h2⟩ := spkt_of (h p (List.mem_cons_self ..))
    exact ⟨_, _, packetOf_framed h1, h2, by rw [conversation, List.append_assoc],
      ih (n + 1) (fun q hq => h q (List.mem_cons_of_mem _ hq))⟩

/-- a connection whose client completes the handshake and then sends these payloads -/
def clientState (ps : List Bytes) (rest : Bytes) : IoSt where
  inp := startBytes false ++ (zpkt (Spec.encode (.kexEcdhInit ⟨Crypto.flat.dhPublic [5]⟩)) ++
    (zpkt (Spec.encode .newKeys) ++ (conversation 3 ps ++ rest)))
  out := []
  wcap := none
  rng := fun _ => 0
  log := []

theorem flat_session (ps : List Bytes) (rest : Bytes) :
    ∃ c s1, Host.handleNewClient .flat (b! "SSH-2.0-nora") (clientState ps rest) = (ok c, s1) ∧
      Spec.keysOf c.receiveCipher = flatKeys ∧ c.sessionIdentifier = List.replicate 32 7 ∧
      s1.inp = conversation 3 ps ++ rest := by
  obtain ⟨c, s1, h, hi, _⟩ := C32_agreement_partial .flat (b! "SSH-2.0-nora") (clientState ps rest)
    (b! "c") _ [5] _ (conversation 3 ps ++ rest) plainKexInit
    (by
      intro a b
      show List.replicate 32 (a.getD 0 0 + b.getD 0 0) = List.replicate 32 (b.getD 0 0 + a.getD 0 0)
      rw [UInt8.add_comm])
    (by decide) rfl (start_client false _) ⟨_, _, _, _, guess_negotiation false⟩
    ⟨_, zpkt_next _ (by decide), _, zpkt_next _ (by decide), rfl⟩
  obtain ⟨_, _, _, _, secret, cp, _, _, _, _, _, _, _, _, _, _, _, _, _, _, _, _, _, hc⟩ :=
    Host.success .flat (by decide) h
  refine ⟨c, s1, h, ?_, ?_, hi⟩
  · rw [hc]
    simp only [sessionOf, cipherOf, Spec.keysOf, Spec.keyBlock, Crypto.flat, flatKeys]
  · rw [hc]; rfl

/-- handlers that know one password and one key -/
def someHandlers : Handlers where
  publicKeyExists := fun _ _ _ _ key => if key = [1] then ok () else err ()
  authenticate := fun _ user _ arg =>
    if user = b! "u" ∧ arg = .password (b! "pw") then ok 1000 else err ()

theorem someHandlers_calm : Calm someHandlers := by
  refine ⟨fun l u v a k => ?_, fun l u v a => ?_⟩
  · simp only [someHandlers]; split_ifs <;> simp
  · simp only [someHandlers]; split_ifs <;> simp

theorem legal_encode {m : Message} (h : Spec.WF m) : Spec.Legal m (Spec.encode m) :=
  ⟨h, 1, by decide, rfl⟩

/-- the payloads of a client that asks for the service, tries without credentials, probes for a key and
then uses the password -/
def examplePayloads : List Bytes :=
  [Spec.encode (.serviceRequest ⟨b! "ssh-userauth"⟩),
   Spec.encode (Spec.request (b! "u") (b! "ssh-connection") .none),
   Spec.encode (Spec.request (b! "u") (b! "ssh-connection")
     (.publicKeyBlob (b! "ssh-ed25519") (Spec.tagged (b! "ssh-ed25519") [1]))),
   Spec.encode (Spec.request (b! "u") (b! "ssh-connection") (.password (b! "pw")))]

/-- this client meets the premises of C37_served, and so it is authenticated, with this history; hence
also the premises of C34_no_bypass, C34_success_sent, C36_answer, C37_one_reply hold for it -/
example : ∃ client s', Server.authenticateNewClient .flat someHandlers (b! "SSH-2.0-nora")
      (clientState examplePayloads [9]) = (ok client, s') ∧ client.user = 1000 ∧ s'.inp = [9] ∧
    ∃ p0 p1 p2 p3, examplePayloads = [p0, p1, p2, p3] ∧
    s'.log = [.received p0, .sent Spec.acceptReply,
      .received p1, .auth (b! "u") (b! "ssh-connection") .none none, .sent Spec.failureReply,
      .received p2, .probe (b! "u") (b! "ssh-connection") (b! "ssh-ed25519") [1] true,
        .sent (Spec.pkOkReply (b! "ssh-ed25519") [1]),
      .received p3, .auth (b! "u") (b! "ssh-connection") (.password (b! "pw")) (some 1000),
        .sent Spec.successReply] := by
  obtain ⟨c, s1, h1, h2, h3, h4⟩ := flat_session examplePayloads [9]
  have hs := conversation_stream [9] examplePayloads 3 (by decide)
  rw [← h2, ← h4] at hs
  obtain ⟨client, s', g1, g2, g3, g4, _⟩ := C37_served .flat someHandlers _ _ _ _ _ [9] _ _ 1000
    (by decide) h1 rfl (by decide +kernel)
    (legal_encode (show Spec.Fits _ by decide))
    (.cons (.refused (.none (legal_encode ⟨by decide, by decide, trivial⟩)) (by rfl))
      (.cons (.known (legal_encode ⟨by decide, by decide, by decide, by decide⟩) (by rfl)
        (fitsBuf_of_le (by decide))) .nil))
    (.mk (.password (legal_encode ⟨by decide, by decide, show Spec.Fits _ by decide⟩)) (by rfl)) hs
  exact ⟨client, s', g1, g2, g4, _, _, _, _, rfl, g3⟩

/-- a signed request that is an attempt -/
example : Spec.Attempt (List.replicate 32 7)
    (Spec.encode (Spec.request (b! "u") (b! "ssh-connection") (.publicKeySigned (b! "ssh-ed25519")
      (Spec.tagged (b! "ssh-ed25519") [1]) (Spec.tagged (b! "ssh-ed25519") [2]))))
    (b! "u") (b! "ssh-connection") (.publicKey (b! "ssh-ed25519") [1] [2]
      (Spec.signData (List.replicate 32 7) (b! "u") (b! "ssh-connection") (b! "ssh-ed25519")
        (Spec.tagged (b! "ssh-ed25519") [1]))) :=
  .publicKey (legal_encode ⟨by decide, by decide, by decide, by decide, by decide⟩) (by decide)

/-- packets that make the server panic: IGNORE, and a request for another method -/
example (sid : Bytes) : Spec.Fatal sid (Spec.encode (.ignore ⟨[]⟩)) :=
  .notUserAuth (m := .ignore ⟨[]⟩) ⟨rfl, legal_encode (show Spec.Fits _ by decide)⟩
    (by intro ua h; cases h)

example (sid : Bytes) : Spec.Fatal sid (Spec.encode (Spec.request (b! "u") (b! "ssh-connection")
    (.other (b! "keyboard-interactive") []))) :=
  .method (legal_encode ⟨by decide, by decide, by decide, by decide⟩) rfl

/-- a probe for an RSA key of 2048 bits (279 bytes of blob) is too large to be answered -/
example (key : Bytes) (h : key.length = 264) :
    ¬ Spec.FitsBuf 256 (Spec.pkOkReply (b! "ssh-rsa") key).length := by
  refine not_fitsBuf ?_
  simp only [Spec.pkOkReply, Spec.tagged, List.length_cons, List.length_append, str_length, h]
  decide

/-- C38 is false of the code -/
theorem C38_refuted : ¬ C38_statement := by
  intro h
  obtain ⟨c, s1, h1, h2, h3, h4⟩ := flat_session [] []
  exact h _ someHandlers _ _ _ _ (by decide) h1 someHandlers_calm rfl (by decide +kernel)
    (C38_refuted_disconnect _ _ _ _ _ _ h1 (by rw [h4]; decide))

end Nora
