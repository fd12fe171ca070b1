import Verif.Lemmas.Send
import Verif.Props.Handshake
/-
The authentication phase.
-/
namespace Nora
open R

theorem unwrapBlob_tagged {algorithm key : Bytes} (h : Spec.Fits (Spec.tagged algorithm key)) :
    Server.unwrapBlob algorithm (Spec.tagged algorithm key) = ok key := by
  have h1 : Spec.Fits algorithm := by
    simp only [Spec.Fits, Spec.tagged, List.length_append, str_length] at h ⊢; omega
  have h2 : Spec.Fits key := by
    simp only [Spec.Fits, Spec.tagged, List.length_append, str_length] at h ⊢; omega
  simp only [Server.unwrapBlob, Spec.tagged, parseString_str_cons h1, okOr, ok_mapErr, ok_bind,
    parseString_str_nil h2]
  rw [if_neg (by simp), if_neg (by simp)]

theorem unwrapBlob_not_tagged {algorithm blob : Bytes} (h : ∀ key, blob ≠ Spec.tagged algorithm key) :
    Server.unwrapBlob algorithm blob = err () := by
  unfold Server.unwrapBlob
  cases h1 : parseString blob with
  | err e => rfl
  | panic => exact absurd h1 parseString_ne_panic
  | ok x =>
    obtain ⟨a, b⟩ := x
    obtain ⟨_, hb⟩ := parseString_eq_ok.mp h1
    simp only [okOr, ok_mapErr, ok_bind]
    cases h2 : parseString b with
    | err e => rfl
    | panic => exact absurd h2 parseString_ne_panic
    | ok y =>
      obtain ⟨key, b'⟩ := y
      obtain ⟨_, hb'⟩ := parseString_eq_ok.mp h2
      simp only [ok_mapErr, ok_bind]
      cases b' with
      | cons => rfl
      | nil =>
        have : algorithm ≠ a := by
          intro he
          refine h key ?_
          rw [hb, hb', he, Spec.tagged, List.append_nil]
        rw [if_neg (by simp), if_pos this]

theorem formatSignData_eq {buf sid user service algorithm blob : Bytes} (h1 : Spec.Fits sid)
    (h2 : Spec.Fits user) (h3 : Spec.Fits service) (h4 : Spec.Fits algorithm) (h5 : Spec.Fits blob) :
    Auth.formatSignData buf sid user service algorithm blob =
      if (Spec.signData sid user service algorithm blob).length ≤ buf.length then
        ok (Spec.signData sid user service algorithm blob) else err () := by
  have hp : Spec.Fits (b! "publickey") := by decide
  simp only [Auth.formatSignData, makeString2_eq h1, makeString2_eq h2, makeString2_eq h3,
    makeString2_eq h4, makeString2_eq h5, makeString2_eq hp, makeRaw_eq, makeBool_eq, ite_bind]
  simp only [List.length_drop, List.drop_drop, str_length, boolT_length, List.length_cons,
    List.length_nil, ite_ite_err, Spec.signData, List.length_append]
  apply ite_final
  · omega
  · intro h
    rw [subP, if_pos (by omega), ok_bind, idxTo, if_pos (by len)]
    congr 1
    have e : Spec.boolT 1 true = [1] := rfl
    rw [e]
    generalize buf.drop _ = rest
    have e2 : Spec.str sid ++ ([50] ++ (Spec.str user ++ (Spec.str service ++
        (Spec.str (b! "publickey") ++ ([1] ++ (Spec.str algorithm ++ (Spec.str blob ++ rest))))))) =
        Spec.signData sid user service algorithm blob ++ rest := by
      simp only [Spec.signData, List.append_assoc, List.cons_append, List.nil_append]
    have e3 : (Spec.signData sid user service algorithm blob).length = 4 + sid.length + 1 +
        (4 + user.length) + (4 + service.length) + 13 + 1 + (4 + algorithm.length) +
        (4 + blob.length) := by
      simp only [Spec.signData, List.length_append, List.length_cons, str_length, List.length_nil]
      omega
    rw [e2, List.take_left' (by omega)]
    rfl

theorem failure_writes : Writes Server.failure Spec.failureReply := by
  have : Spec.WF Server.failure := ⟨by decide, [b! "publickey", b! "password"], by decide, by decide⟩
  exact writes_of_WF this

theorem success_writes : Writes (.userAuth .success) Spec.successReply :=
  writes_of_WF (m := .userAuth .success) trivial

theorem pkOk_writes {algorithm key : Bytes} (h1 : Spec.Fits algorithm)
    (h2 : Spec.Fits (Spec.tagged algorithm key)) :
    Writes (.userAuth (.publicKeyOk { algorithm, blob := Spec.tagged algorithm key }))
      (Spec.pkOkReply algorithm key) :=
  writes_of_WF (m := .userAuth (.publicKeyOk { algorithm, blob := Spec.tagged algorithm key }))
    ⟨h1, h2⟩

/-- what the loop keeps: the size of the buffers -/
structure AuthSt.Ok (st : AuthSt) : Prop where
  pkt : st.pktBuf.length = 35000
  mini : st.mini.length = 256

/-- packets that can still be numbered: every packet received costs input, so with fewer bytes of
input than this the packet counters are not exhausted -/
def Room (st : AuthSt) (s : IoSt) : Prop :=
  st.send.counter.toNat + s.inp.length + 1 < 2 ^ 64 ∧
  st.receive.counter.toNat + s.inp.length + 1 < 2 ^ 64

/-- `Room` is not lost in going from one state to another -/
def Later (st : AuthSt) (s : IoSt) (st' : AuthSt) (s' : IoSt) : Prop :=
  s'.inp.length + 20 ≤ s.inp.length ∧ (s.wcap = none → s'.wcap = none) ∧
  (Room st s → Room st' s')

/-- a packet has been received and one has been sent: the ciphers after that -/
def Took (K : Crypto) (st : AuthSt) (s : IoSt) (send receive : ChaCha) (s' : IoSt) : Prop :=
  ∃ p pktBuf s1, In.recv K st.receive st.pktBuf s = (ok (p, receive, pktBuf), s1) ∧
    s'.inp = s1.inp ∧ Spec.keysOf send = Spec.keysOf st.send ∧
    send.counter.toNat = st.send.counter.toNat + 1

/-- the outcome of one iteration -/
def AttemptOk (K : Crypto) (H : Handlers) (sid : Bytes) (st : AuthSt) (s : IoSt) :
    R Unit (AuthSt ⊕ Authenticated) × IoSt → Prop
  | (ok (.inl st'), s') => ∃ t, s'.log = s.log ++ t ∧ Spec.Round H sid s.log t ∧ st'.Ok ∧
      Later st s st' s' ∧ Took K st s st'.send st'.receive s'
  | (ok (.inr c), s') => Took K st s c.send c.receive s' ∧ (s.wcap = none → s'.wcap = none) ∧
      ∃ t, s'.log = s.log ++ t ∧ Spec.Final H sid (s.wcap ≠ none) (¬ Room st s) s.log (ok c.user) t
  | (err (), s') => ∃ t, s'.log = s.log ++ t ∧
      Spec.Final H sid (s.wcap ≠ none) (¬ Room st s) s.log (err ()) t
  | (R.panic, s') => ∃ t, s'.log = s.log ++ t ∧
      Spec.Final H sid (s.wcap ≠ none) (¬ Room st s) s.log R.panic t

theorem Spec.Legal.fits {user service : Bytes} {m : Auth.Method} {p : Bytes}
    (h : Spec.Legal (Spec.request user service m) p) :
    Spec.Fits user ∧ Spec.Fits service ∧ Spec.methodWF m := h.1

/-- what `credentials` returns -/
theorem credentials_cases {sid p : Bytes} (hsid : Spec.Fits sid) {ua : Auth.Request}
    (h : Spec.Legal (.userAuth (.request ua)) p) (hb : ∀ a b, ua.method ≠ .publicKeyBlob a b) :
    (∃ arg, Server.credentials sid ua = ok arg ∧ Spec.Attempt sid p ua.user ua.service arg) ∨
    (Server.credentials sid ua = err () ∧ Spec.Malformed p) ∨
    (Server.credentials sid ua = R.panic ∧ Spec.Fatal sid p) := by
  obtain ⟨user, service, method⟩ := ua
  obtain ⟨hu, hs, hm⟩ := Spec.Legal.fits h
  cases method with
  | none => exact .inl ⟨_, rfl, .none h⟩
  | publicKeyBlob a b => exact absurd rfl (hb a b)
  | password pw => exact .inl ⟨_, rfl, .password h⟩
  | passwordRenew a b => exact .inr (.inr ⟨rfl, .method h rfl⟩)
  | hostBased a b c d e => exact .inr (.inr ⟨rfl, .method h rfl⟩)
  | other a b => exact .inr (.inr ⟨rfl, .method h rfl⟩)
  | publicKeySigned algorithm blob signature =>
    obtain ⟨ha, hbl, hsg⟩ := hm
    by_cases hk : ∃ key, blob = Spec.tagged algorithm key
    · obtain ⟨key, rfl⟩ := hk
      by_cases hx : ∃ x, signature = Spec.tagged algorithm x
      · obtain ⟨x, rfl⟩ := hx
        simp only [Server.credentials, unwrapBlob_tagged hbl, unwrapBlob_tagged hsg, ok_bind,
          formatSignData_eq hsid hu hs ha hbl, List.length_replicate]
        by_cases hl : (Spec.signData sid user service algorithm
            (Spec.tagged algorithm key)).length ≤ 1024
        · rw [if_pos hl]
          exact .inl ⟨_, rfl, .publicKey h hl⟩
        · rw [if_neg hl]
          exact .inr (.inr ⟨rfl, .tooLong h (by omega)⟩)
      · refine .inr (.inl ⟨?_, .signature h (fun x hx' => hx ⟨x, hx'⟩)⟩)
        simp only [Server.credentials, unwrapBlob_tagged hbl, ok_bind,
          unwrapBlob_not_tagged (fun x hx' => hx ⟨x, hx'⟩)]
        rfl
    · refine .inr (.inl ⟨?_, .key h (fun x hx' => hk ⟨x, hx'⟩)⟩)
      simp only [Server.credentials, unwrapBlob_not_tagged (fun x hx' => hk ⟨x, hx'⟩)]
      rfl

/-- the state after the packet of a request has been received -/
structure After (K : Crypto) (st0 : AuthSt) (s0 : IoSt) (p : Bytes) (st : AuthSt) (s : IoSt) :
    Prop where
  recv : In.recv K st0.receive st0.pktBuf s0 = (ok (p, st.receive, st.pktBuf), s)
  ok : st.Ok
  log : s.log = s0.log ++ [.received p]
  wcap : s.wcap = s0.wcap
  inp : s.inp.length + 20 ≤ s0.inp.length
  send : st.send = st0.send
  receive : st.receive.counter.toNat = st0.receive.counter.toNat + 1

theorem After.room {K : Crypto} {st0 st : AuthSt} {s0 s : IoSt} {p : Bytes} (h : After K st0 s0 p st s)
    (hc : ¬ st.send.counter.toNat + 1 < 2 ^ 64) : ¬ Room st0 s0 := by
  rintro ⟨h1, _⟩
  rw [h.send] at hc
  omega

theorem After.took {K : Crypto} {st0 st : AuthSt} {s0 s s' : IoSt} {p : Bytes}
    (h : After K st0 s0 p st s) {c : ChaCha} (hi : s'.inp = s.inp)
    (hk : Spec.keysOf c = Spec.keysOf st.send) (hc : c.counter.toNat = st.send.counter.toNat + 1) :
    Took K st0 s0 c st.receive s' :=
  ⟨p, _, s, h.recv, hi, by rw [hk, h.send], by rw [hc, h.send]⟩

/-- `Server.send`, as far as the log is concerned -/
theorem Server.send_log (K : Crypto) (c : ChaCha) (buf : Bytes) {m : Message} {e : Bytes}
    (hm : Writes m e) (s : IoSt) (hb : 5 ≤ buf.length) (hb2 : buf.length < 4294967296) :
    (∃ c' buf' s', Server.send K c buf m s = (ok (c', buf'), s') ∧ s'.log = s.log ++ [.sent e] ∧
      s'.inp = s.inp ∧ (s.wcap = none → s'.wcap = none) ∧ buf'.length = buf.length ∧
      c'.counter.toNat = c.counter.toNat + 1 ∧ Spec.FitsBuf buf.length e.length ∧
      Spec.keysOf c' = Spec.keysOf c) ∨
    (∃ s', Server.send K c buf m s = (R.panic, s') ∧ s'.log = s.log ++ [.sent e] ∧ s.wcap ≠ none ∧
      Spec.FitsBuf buf.length e.length) ∨
    (∃ s', Server.send K c buf m s = (R.panic, s') ∧ s'.log = s.log ∧
      ¬ Spec.FitsBuf buf.length e.length) ∨
    (∃ s', Server.send K c buf m s = (R.panic, s') ∧ s'.log = s.log ∧
      Spec.FitsBuf buf.length e.length ∧ ¬ c.counter.toNat + 1 < 2 ^ 64) := by
  rcases Server.send_cases K c buf hm s hb hb2 with
    ⟨hf, _, k, raw, _, _, ⟨w, c', buf', h1, h2, hk, h4, h5⟩ | ⟨hw, s', h1, h2, h3, _⟩⟩ |
    ⟨hor, s', h1, h2, h3, _⟩
  · exact .inl ⟨c', buf', _, h1, rfl, rfl, h5, h4, h2, hf, hk⟩
  · exact .inr (.inl ⟨s', h1, h3, hw, hf⟩)
  · by_cases hf : Spec.FitsBuf buf.length e.length
    · exact .inr (.inr (.inr ⟨s', h1, h3, hf, hor.resolve_left (fun h => h hf)⟩))
    · exact .inr (.inr (.inl ⟨s', h1, h3, hf⟩))

theorem Server.publicKeyExists_run (H : Handlers) (u v a k : Bytes) (s : IoSt) :
    Server.publicKeyExists H u v a k s = match H.publicKeyExists s.log u v a k with
      | .ok _ => (ok true, { s with log := s.log ++ [.probe u v a k true] })
      | .err _ => (ok false, { s with log := s.log ++ [.probe u v a k false] })
      | .panic => (R.panic, s) := by
  rw [Server.publicKeyExists, M.bind_ok (M.getLog_run s)]
  cases H.publicKeyExists s.log u v a k <;> rfl

theorem Server.authenticate_run (H : Handlers) (u v : Bytes) (a : AuthArg) (s : IoSt) :
    Server.authenticate H u v a s = match H.authenticate s.log u v a with
      | .ok x => (ok (some x), { s with log := s.log ++ [.auth u v a (some x)] })
      | .err _ => (ok none, { s with log := s.log ++ [.auth u v a none] })
      | .panic => (R.panic, s) := by
  rw [Server.authenticate, M.bind_ok (M.getLog_run s)]
  cases H.authenticate s.log u v a <;> rfl

/-- a probe, after the request has been parsed -/
theorem probe_ok {K : Crypto} {H : Handlers} {sid p : Bytes} {st0 st : AuthSt} {s0 s : IoSt}
    {ua : Auth.Request} {a b : Bytes} (h : Spec.Legal (.userAuth (.request ua)) p)
    (hm : ua.method = .publicKeyBlob a b) (haf : After K st0 s0 p st s) :
    AttemptOk K H sid st0 s0 ((do
      let st ← Server.probe K H st ua a b
      pure (.inl st) : M Unit (AuthSt ⊕ Authenticated)) s) := by
  obtain ⟨user, service, method⟩ := ua
  simp only at hm
  subst hm
  obtain ⟨hu, hs, ha, hb⟩ := Spec.Legal.fits h
  by_cases hk : ∃ key, b = Spec.tagged a key
  rotate_left
  · simp only [Server.probe, unwrapBlob_not_tagged (fun x hx' => hk ⟨x, hx'⟩), M.lift_err_bind]
    exact ⟨[.received p], haf.log, .malformed (.blob h (fun x hx' => hk ⟨x, hx'⟩))⟩
  obtain ⟨key, rfl⟩ := hk
  have hp : Spec.Probe p user service a key := h
  have hrun := Server.publicKeyExists_run H user service a key s
  simp only [Server.probe, unwrapBlob_tagged hb, M.lift_ok_bind]
  cases hH : H.publicKeyExists s.log user service a key with
  | panic =>
    rw [hH] at hrun
    rw [M.bind_panic (M.bind_panic hrun)]
    refine ⟨[.received p], haf.log, .probePanics hp ?_⟩
    rw [← haf.log]; exact hH
  | ok _ =>
    rw [hH] at hrun
    rw [M.bind_run, M.bind_ok hrun]
    simp only [if_true]
    rw [haf.log] at hH
    have hmini := haf.ok.mini
    rcases Server.send_log K st.send st.mini (pkOk_writes ha hb)
      { s with log := s.log ++ [.probe user service a key true] } (by omega) (by omega) with
      ⟨c', buf', s', h1, h2, h3, h4, h5, h6, h7, hks⟩ | ⟨s', h1, h2, h3, h7⟩ | ⟨s', h1, h2, h7⟩ |
      ⟨s', h1, h2, h7, h8⟩
    · rw [M.bind_ok h1]
      rw [hmini] at h7
      refine ⟨_, ?_, .known hp hH h7, ⟨haf.ok.pkt, h5.trans hmini⟩, ?_, haf.took h3 hks h6⟩
      · rw [h2, haf.log]; simp
      · refine ⟨?_, ?_, ?_⟩
        · show s'.inp.length + 20 ≤ _
          rw [h3]; exact haf.inp
        · intro hw; exact h4 (haf.wcap.trans hw)
        · rintro ⟨r1, r2⟩
          have := haf.inp
          have := haf.receive
          have := haf.send
          simp only [Room, h3, h6]
          rw [haf.send]
          omega
    · rw [M.bind_panic h1]
      rw [hmini] at h7
      refine ⟨_, ?_, .roundWrite (haf.wcap ▸ h3) (.known hp hH h7)⟩
      rw [h2, haf.log]; simp
    · rw [M.bind_panic h1]
      rw [hmini] at h7
      refine ⟨_, ?_, .tooLarge hp hH h7⟩
      rw [h2, haf.log]; simp
    · rw [M.bind_panic h1]
      rw [hmini] at h7
      refine ⟨[.received p, .probe user service a key true], ?_,
        .roundOverflow (haf.room h8) (.known hp hH h7)⟩
      rw [h2, haf.log]; simp
  | err _ =>
    rw [hH] at hrun
    rw [M.bind_run, M.bind_ok hrun]
    simp only [Bool.false_eq_true, if_false]
    rw [haf.log] at hH
    have hmini := haf.ok.mini
    rcases Server.send_log K st.send st.mini failure_writes
      { s with log := s.log ++ [.probe user service a key false] } (by omega) (by omega) with
      ⟨c', buf', s', h1, h2, h3, h4, h5, h6, h7, hks⟩ | ⟨s', h1, h2, h3, h7⟩ | ⟨s', h1, h2, h7⟩ |
      ⟨s', h1, h2, h7, h8⟩
    · rw [M.bind_ok h1]
      refine ⟨_, ?_, .unknown hp hH, ⟨haf.ok.pkt, h5.trans hmini⟩, ?_, haf.took h3 hks h6⟩
      · rw [h2, haf.log]; simp
      · refine ⟨?_, ?_, ?_⟩
        · show s'.inp.length + 20 ≤ _
          rw [h3]; exact haf.inp
        · intro hw; exact h4 (haf.wcap.trans hw)
        · rintro ⟨r1, r2⟩
          have := haf.inp
          have := haf.receive
          have := haf.send
          simp only [Room, h3, h6]
          rw [haf.send]
          omega
    · rw [M.bind_panic h1]
      refine ⟨_, ?_, .roundWrite (haf.wcap ▸ h3) (.unknown hp hH)⟩
      rw [h2, haf.log]; simp
    · exact absurd (fitsBuf_of_le (by rw [hmini]; decide)) h7
    · rw [M.bind_panic h1]
      refine ⟨[.received p, .probe user service a key false], ?_,
        .roundOverflow (haf.room h8) (.unknown hp hH)⟩
      rw [h2, haf.log]; simp

/-- credentials, after the request has been parsed -/
theorem check_ok {K : Crypto} {H : Handlers} {sid p : Bytes} {st0 st : AuthSt} {s0 s : IoSt}
    (hsid : Spec.Fits sid)
    {ua : Auth.Request} (h : Spec.Legal (.userAuth (.request ua)) p)
    (hm : ∀ a b, ua.method ≠ .publicKeyBlob a b) (haf : After K st0 s0 p st s) :
    AttemptOk K H sid st0 s0 (Server.check K H sid st ua s) := by
  unfold Server.check
  have hpkt := haf.ok.pkt
  rcases credentials_cases hsid h hm with ⟨arg, hcr, ha⟩ | ⟨hcr, hmal⟩ | ⟨hcr, hfat⟩
  rotate_left
  · rw [hcr, M.lift_err_bind]
    exact ⟨[.received p], haf.log, .malformed hmal⟩
  · rw [hcr, M.lift_panic_bind]
    exact ⟨[.received p], haf.log, .fatal hfat⟩
  rw [hcr, M.lift_ok_bind]
  have hrun := Server.authenticate_run H ua.user ua.service arg s
  cases hH : H.authenticate s.log ua.user ua.service arg with
  | panic =>
    rw [hH] at hrun
    rw [M.bind_panic hrun]
    refine ⟨[.received p], haf.log, .authPanics ha ?_⟩
    rw [← haf.log]; exact hH
  | ok u =>
    rw [hH] at hrun
    rw [M.bind_ok hrun]
    simp only
    rw [haf.log] at hH
    have hacc : Spec.Accepted H sid s0.log u _ := .mk ha hH
    rcases Server.send_log K st.send st.pktBuf success_writes
      { s with log := s.log ++ [.auth ua.user ua.service arg (some u)] } (by omega) (by omega) with
      ⟨c', buf', s', h1, h2, h3, h4, h5, h6, h7, hks⟩ | ⟨s', h1, h2, h3, h7⟩ | ⟨s', h1, h2, h7⟩ |
      ⟨s', h1, h2, h7, h8⟩
    · rw [M.bind_ok h1]
      refine ⟨haf.took h3 hks h6, fun hw => h4 (haf.wcap.trans hw), _, ?_, .accepted hacc⟩
      show s'.log = _
      rw [h2, haf.log]; simp
    · rw [M.bind_panic h1]
      refine ⟨_, ?_, .acceptedWrite (haf.wcap ▸ h3) hacc⟩
      rw [h2, haf.log]; simp
    · exact absurd (fitsBuf_of_le (by rw [hpkt]; decide)) h7
    · rw [M.bind_panic h1]
      refine ⟨[.received p, .auth ua.user ua.service arg (some u)], ?_,
        .acceptedOverflow (haf.room h8) hacc⟩
      rw [h2, haf.log]; simp
  | err u =>
    rw [hH] at hrun
    rw [M.bind_ok hrun]
    simp only
    rw [haf.log] at hH
    have hacc : Spec.Round H sid s0.log _ := .refused ha hH
    rcases Server.send_log K st.send st.pktBuf failure_writes
      { s with log := s.log ++ [.auth ua.user ua.service arg none] } (by omega) (by omega) with
      ⟨c', buf', s', h1, h2, h3, h4, h5, h6, h7, hks⟩ | ⟨s', h1, h2, h3, h7⟩ | ⟨s', h1, h2, h7⟩ |
      ⟨s', h1, h2, h7, h8⟩
    · rw [M.bind_ok h1]
      refine ⟨_, ?_, hacc, ⟨h5.trans hpkt, haf.ok.mini⟩, ?_, haf.took h3 hks h6⟩
      · show s'.log = _
        rw [h2, haf.log]; simp
      · refine ⟨?_, ?_, ?_⟩
        · show s'.inp.length + 20 ≤ _
          rw [h3]; exact haf.inp
        · intro hw; exact h4 (haf.wcap.trans hw)
        · rintro ⟨r1, r2⟩
          have := haf.inp
          have := haf.receive
          have := haf.send
          simp only [Room, h3, h6]
          rw [haf.send]
          omega
    · rw [M.bind_panic h1]
      refine ⟨_, ?_, .roundWrite (haf.wcap ▸ h3) hacc⟩
      rw [h2, haf.log]; simp
    · exact absurd (fitsBuf_of_le (by rw [hpkt]; decide)) h7
    · rw [M.bind_panic h1]
      refine ⟨[.received p, .auth ua.user ua.service arg none], ?_,
        .roundOverflow (haf.room h8) hacc⟩
      rw [h2, haf.log]; simp

/-- One iteration of the loop. -/
theorem attempt_ok (K : Crypto) (H : Handlers) {sid : Bytes} (hsid : Spec.Fits sid) {st : AuthSt}
    (hst : st.Ok) (s : IoSt) : AttemptOk K H sid st s (Server.attempt K H sid st s) := by
  have hpkt := hst.pkt
  unfold Server.attempt
  rcases In.recv_outcome K st.receive st.pktBuf s (by omega) with
    ⟨e, i, h⟩ | ⟨hc, i, h⟩ | ⟨hc, p, c', buf', i, h, hi, hcc, hk, hb⟩
  · rw [M.bind_err (e := ()) (s' := { s with inp := i }) (by rw [M.mapErr_run, h]; rfl)]
    exact ⟨[], by simp, .lost⟩
  · rw [M.bind_panic (s' := { s with inp := i }) (by rw [M.mapErr_run, h]; rfl)]
    refine ⟨[], by simp, .overflow ?_⟩
    rintro ⟨_, h2⟩
    omega
  rw [M.bind_ok (a := (p, c', buf')) (s' := { s with inp := i, log := s.log ++ [.received p] })
    (by rw [M.mapErr_run, h]; rfl)]
  simp only
  have haf : After K st s p { st with receive := c', pktBuf := buf' }
      { s with inp := i, log := s.log ++ [.received p] } :=
    ⟨h, ⟨hb.trans hpkt, hst.mini⟩, rfl, rfl, hi, rfl, hcc⟩
  cases hp : Message.parse p with
  | panic => exact absurd hp Message.parse_ne_panic
  | err e =>
    simp only [R.mapErr, M.lift_err_bind]
    exact ⟨[.received p], rfl, .malformed (.unparsable (fun m hm => by rw [reads_iff.mpr hm] at hp; cases hp))⟩
  | ok m =>
    simp only [R.mapErr, M.lift_ok_bind]
    by_cases hua : ∃ ua, m = .userAuth ua
    rotate_left
    · have : m.intoUserAuth = err () := by
        cases m <;> first | rfl | exact absurd ⟨_, rfl⟩ hua
      simp only [this, R.unwrap, M.lift_panic_bind]
      exact ⟨[.received p], rfl, .fatal (.notUserAuth (reads_iff.mp hp) (fun ua h => hua ⟨ua, h⟩))⟩
    obtain ⟨ua, rfl⟩ := hua
    simp only [Message.intoUserAuth, R.unwrap, M.lift_ok_bind]
    by_cases hrq : ∃ r, ua = .request r
    rotate_left
    · have : ua.intoRequest = err () := by
        cases ua <;> first | rfl | exact absurd ⟨_, rfl⟩ hrq
      simp only [this, R.okOr, R.mapErr, M.lift_err_bind]
      exact ⟨[.received p], rfl, .malformed (.notRequest (reads_iff.mp hp).2 (fun r h => hrq ⟨r, h⟩))⟩
    obtain ⟨r, rfl⟩ := hrq
    simp only [UserAuth.intoRequest, R.okOr, R.mapErr, M.lift_ok_bind]
    have hl : Spec.Legal (.userAuth (.request r)) p := (Message.parse_iff rfl).mp hp
    cases hm : r.method with
    | publicKeyBlob a b => exact probe_ok hl hm haf
    | _ => exact check_ok hsid hl (by simp [hm]) haf

/-! ### the loop -/

theorem Spec.Final.mono {H : Handlers} {sid : Bytes} {W O W' O' : Prop} {l : List Event}
    {r : R Unit Nat} {t : List Event} (hW : W → W') (hO : O → O') (h : Spec.Final H sid W O l r t) :
    Spec.Final H sid W' O' l r t := by
  cases h with
  | lost => exact .lost
  | malformed h => exact .malformed h
  | accepted h => exact .accepted h
  | fatal h => exact .fatal h
  | tooLarge h1 h2 h3 => exact .tooLarge h1 h2 h3
  | probePanics h1 h2 => exact .probePanics h1 h2
  | authPanics h1 h2 => exact .authPanics h1 h2
  | roundWrite w h => exact .roundWrite (hW w) h
  | acceptedWrite w h => exact .acceptedWrite (hW w) h
  | overflow o => exact .overflow (hO o)
  | roundOverflow o h => exact .roundOverflow (hO o) h
  | acceptedOverflow o h => exact .acceptedOverflow (hO o) h

/-- what the loop logs: complete rounds and a final part -/
def LoopOk (H : Handlers) (sid : Bytes) (st : AuthSt) (s : IoSt) (x : R Unit Authenticated × IoSt) :
    Prop :=
  ∃ t u, x.2.log = s.log ++ t ++ u ∧ Spec.Rounds H sid s.log t ∧
    Spec.Final H sid (s.wcap ≠ none) (¬ Room st s) (s.log ++ t) (x.1.map (·.user)) u

theorem loopN_ok (K : Crypto) (H : Handlers) {sid : Bytes} (hsid : Spec.Fits sid) :
    ∀ (n : Nat) (st : AuthSt) (s : IoSt), st.Ok → s.inp.length < n →
      LoopOk H sid st s (Server.loopN K H sid n st s) := by
  intro n
  induction n with
  | zero => intro st s _ h; omega
  | succ n ih =>
    intro st s hst hn
    have ha := attempt_ok K H hsid hst s
    rw [Server.loopN, M.bind_run]
    revert ha
    rcases Server.attempt K H sid st s with ⟨r, s'⟩
    intro ha
    cases r with
    | ok x =>
      cases x with
      | inl st' =>
        obtain ⟨r, hl, hr, hok, ⟨hlen, hw, hroom⟩, _⟩ := ha
        obtain ⟨t, u, h1, h2, h3⟩ := ih st' s' hok (by omega)
        refine ⟨r ++ t, u, ?_, .cons hr (hl ▸ h2), ?_⟩
        · rw [h1, hl]; simp
        · rw [← List.append_assoc, ← hl]
          exact h3.mono (fun w w' => w (hw w')) (fun o r => o (hroom r))
      | inr c =>
        obtain ⟨_, _, t, hl, hf⟩ := ha
        exact ⟨[], t, by simp [hl], .nil, by simpa using hf⟩
    | err e =>
      obtain ⟨t, hl, hf⟩ := ha
      exact ⟨[], t, by simp [hl], .nil, by simpa using hf⟩
    | panic =>
      obtain ⟨t, hl, hf⟩ := ha
      exact ⟨[], t, by simp [hl], .nil, by rw [List.append_nil]; exact hf⟩

theorem loopN_fuel (K : Crypto) (H : Handlers) {sid : Bytes} (hsid : Spec.Fits sid) :
    ∀ (n m : Nat) (st : AuthSt) (s : IoSt), st.Ok → s.inp.length < n → s.inp.length < m →
      Server.loopN K H sid n st s = Server.loopN K H sid m st s := by
  intro n
  induction n with
  | zero => intro m st s _ h; omega
  | succ n ih =>
    intro m st s hst hn hm
    obtain ⟨m, rfl⟩ : ∃ m', m = m' + 1 := ⟨m - 1, by omega⟩
    have ha := attempt_ok K H hsid hst s
    rw [Server.loopN, Server.loopN, M.bind_run, M.bind_run]
    revert ha
    rcases Server.attempt K H sid st s with ⟨r, s'⟩
    intro ha
    cases r with
    | ok x =>
      cases x with
      | inl st' =>
        obtain ⟨r, hl, hr, hok, ⟨hlen, hw, hroom⟩, _⟩ := ha
        exact ih m st' s' hok (by omega) (by omega)
      | inr c => rfl
    | err e => rfl
    | panic => rfl

/-- the loop is the loop of the source: one iteration, and if it continues the loop again -/
theorem Server.loop_eq (K : Crypto) (H : Handlers) {sid : Bytes} (hsid : Spec.Fits sid) {st : AuthSt}
    (hst : st.Ok) (s : IoSt) :
    Server.loop K H sid st s = (do
      match ← Server.attempt K H sid st with
      | .inl st => Server.loop K H sid st
      | .inr c => pure c : M Unit Authenticated) s := by
  have ha := attempt_ok K H hsid hst s
  rw [Server.loop, Server.loopN, M.bind_run, M.bind_run]
  revert ha
  rcases Server.attempt K H sid st s with ⟨r, s'⟩
  intro ha
  cases r with
  | ok x =>
    cases x with
    | inl st' =>
      obtain ⟨r, hl, hr, hok, ⟨hlen, hw, hroom⟩, _⟩ := ha
      exact loopN_fuel K H hsid _ _ st' s' hok (by omega) (by omega)
    | inr c => rfl
  | err e => rfl
  | panic => rfl

/-! ### the service request -/

theorem accept_writes : Writes (.serviceAccept { serviceName := b! "ssh-userauth" })
    Spec.acceptReply :=
  writes_of_WF (m := .serviceAccept { serviceName := b! "ssh-userauth" })
    (show Spec.Fits _ by decide)

/-- what is logged when the service request ends the session -/
inductive ServiceFailed (W O : Prop) : List Event → Prop
  | noService : ServiceFailed W O []
  | otherMessage {p} : ¬ Spec.ServiceRequested p → ServiceFailed W O [.received p]
  | serviceWrite {p} : W → Spec.ServiceRequested p →
    ServiceFailed W O [.received p, .sent Spec.acceptReply]
  | serviceOverflow {p} : O → Spec.ServiceRequested p → ServiceFailed W O [.received p]

/-- the outcome of the service request -/
def ServiceOk (K : Crypto) (st : AuthSt) (s : IoSt) :
    R Unit AuthSt × IoSt → Prop
  | (ok st', s') => ∃ p, s'.log = s.log ++ [.received p, .sent Spec.acceptReply] ∧
      Spec.ServiceRequested p ∧ st'.Ok ∧ Later st s st' s' ∧ Took K st s st'.send st'.receive s'
  | (err (), _) => False
  | (R.panic, s') => ∃ t, s'.log = s.log ++ t ∧
      ServiceFailed (s.wcap ≠ none) (¬ Room st s) t

theorem service_ok (K : Crypto) {st : AuthSt} (hst : st.Ok) (s : IoSt) :
    ServiceOk K st s (Server.service K st s) := by
  have hpkt := hst.pkt
  have hmini := hst.mini
  unfold Server.service
  rcases In.recv_outcome K st.receive st.pktBuf s (by omega) with
    ⟨e, i, h⟩ | ⟨hc, i, h⟩ | ⟨hc, p, c', buf', i, h, hi, hcc, hk, hb⟩
  · rw [M.bind_panic (s' := { s with inp := i }) (by rw [M.unwrap_run, h]; rfl)]
    exact ⟨[], by simp, .noService⟩
  · rw [M.bind_panic (s' := { s with inp := i }) (by rw [M.unwrap_run, h]; rfl)]
    exact ⟨[], by simp, .noService⟩
  rw [M.bind_ok (a := (p, c', buf')) (s' := { s with inp := i, log := s.log ++ [.received p] })
    (by rw [M.unwrap_run, h]; rfl)]
  simp only
  cases hp : Message.parse p with
  | panic => exact absurd hp Message.parse_ne_panic
  | err e =>
    simp only [R.unwrap, M.lift_panic_bind]
    refine ⟨[.received p], rfl, .otherMessage (fun hs => ?_)⟩
    rw [(Message.parse_iff rfl).mpr hs] at hp
    cases hp
  | ok m =>
    simp only [R.unwrap, M.lift_ok_bind]
    by_cases hm : ∃ o, m = .serviceRequest o
    rotate_left
    · have : m.intoServiceRequest = err () := by
        cases m <;> first | rfl | exact absurd ⟨_, rfl⟩ hm
      simp only [this, M.lift_panic_bind]
      refine ⟨[.received p], rfl, .otherMessage (fun hs => ?_)⟩
      rw [(Message.parse_iff rfl).mpr hs, R.ok.injEq] at hp
      exact hm ⟨_, hp.symm⟩
    obtain ⟨⟨name⟩, rfl⟩ := hm
    simp only [Message.intoServiceRequest, M.lift_ok_bind]
    by_cases hn : name = b! "ssh-userauth"
    rotate_left
    · rw [if_neg hn]
      refine ⟨[.received p], rfl, .otherMessage (fun hs => ?_)⟩
      rw [(Message.parse_iff rfl).mpr hs] at hp
      simp only [R.ok.injEq, Message.serviceRequest.injEq, Msg.Service.mk.injEq] at hp
      exact hn hp.symm
    subst hn
    rw [if_pos rfl]
    have hs : Spec.ServiceRequested p := (Message.parse_iff rfl).mp hp
    rcases Server.send_log K st.send st.mini accept_writes
      { s with inp := i, log := s.log ++ [.received p] } (by omega) (by omega) with
      ⟨c2, buf2, s', h1, h2, h3, h4, h5, h6, h7, hks⟩ | ⟨s', h1, h2, h3, h7⟩ | ⟨s', h1, h2, h7⟩ |
      ⟨s', h1, h2, h7, h8⟩
    · rw [M.bind_ok h1]
      refine ⟨p, ?_, hs, ⟨hb.trans hpkt, h5.trans hmini⟩, ⟨?_, h4, ?_⟩, p, buf', _, h, h3, hks, h6⟩
      · show s'.log = _
        rw [h2]; simp
      · show s'.inp.length + 20 ≤ _
        rw [h3]; exact hi
      · rintro ⟨r1, r2⟩
        simp only [Room, h3, h6]
        omega
    · rw [M.bind_panic h1]
      exact ⟨_, by rw [h2]; simp, .serviceWrite h3 hs⟩
    · exact absurd (fitsBuf_of_le (by rw [hmini]; decide)) h7
    · rw [M.bind_panic h1]
      refine ⟨_, h2, .serviceOverflow ?_ hs⟩
      rintro ⟨r1, r2⟩
      omega

/-! ### the handshake and the log -/

/-- the computation logs nothing and does not make writes fail -/
def Tame {ε α : Type} (x : M ε α) : Prop :=
  ∀ s, (x s).2.log = s.log ∧ (s.wcap = none → (x s).2.wcap = none)

section tame
variable {ε ε' α β : Type}

theorem Tame.bind {x : M ε α} {f : α → M ε β} (hx : Tame x) (hf : ∀ a, Tame (f a)) :
    Tame (x >>= f) := by
  intro s
  rw [M.bind_run]
  have h := hx s
  revert h
  rcases x s with ⟨r, s'⟩
  intro h
  cases r with
  | ok a => exact ⟨(hf a s').1.trans h.1, fun hw => (hf a s').2 (h.2 hw)⟩
  | err e => exact h
  | panic => exact h

theorem Tame.mapErr {x : M ε α} (hx : Tame x) (f : ε → ε') : Tame (x.mapErr f) := hx
theorem Tame.lift (x : R ε α) : Tame (M.lift x) := fun _ => ⟨rfl, id⟩
theorem Tame.pure (x : α) : Tame (pure x : M ε α) := fun _ => ⟨rfl, id⟩
theorem Tame.fail (e : ε) : Tame (M.fail e : M ε α) := fun _ => ⟨rfl, id⟩

theorem Tame.readExact (n : Nat) : Tame (M.readExact n) := by
  intro s
  unfold M.readExact
  split_ifs <;> exact ⟨rfl, id⟩

theorem Tame.writeAll (d : Bytes) : Tame (M.writeAll d) := by
  intro s
  rcases M.writeAll_cases d s with ⟨w, h, hw⟩ | ⟨hw, n, h⟩
  · rw [h]; exact ⟨rfl, hw⟩
  · rw [h]; exact ⟨rfl, fun h => absurd h hw⟩

theorem Tame.withRng (f : Tape → R ε (α × Tape)) : Tame (M.withRng f) := by
  intro s
  unfold M.withRng
  cases f s.rng with
  | ok a => exact ⟨rfl, id⟩
  | err e => exact ⟨rfl, id⟩
  | panic => exact ⟨rfl, id⟩

theorem Tame.ite {c : Prop} {_ : Decidable c} {x y : M ε α} (hx : Tame x) (hy : Tame y) :
    Tame (if c then x else y) := by
  split_ifs <;> assumption

theorem Tame.packet (buf : Bytes) (mode : Bool) (bs : BlockSize) :
    Tame (PacketIo.parse buf mode bs) := by
  unfold PacketIo.parse
  refine .bind (.lift _) fun _ => .bind (.mapErr (.readExact _) _) fun _ => .bind (.lift _) fun _ =>
    .ite (.fail _) (.ite (.fail _) (.bind (.lift _) fun _ => .bind (.lift _) fun _ =>
      .bind (.mapErr (.readExact _) _) fun _ => .lift _))

theorem Tame.ident : Tame Ident.parse := by
  intro s
  unfold Ident.parse
  cases Ident.parseStream s.inp with
  | ok a => exact ⟨rfl, id⟩
  | err e => exact ⟨rfl, id⟩
  | panic => exact ⟨rfl, id⟩

end tame

theorem Tame.handshake (K : Crypto) (ident : Bytes) : Tame (Host.handleNewClient K ident) := by
  unfold Host.handleNewClient Host.handshake
  refine .bind ?_ fun _ => .bind ?_ fun _ => .bind ?_ fun _ => .bind ?_ fun _ => .bind ?_ fun _ => .pure _
  · unfold Host.hello Ident.send
    exact .bind (.mapErr (.bind (.writeAll _) fun _ => .writeAll _) _) fun _ => .bind (.withRng _)
      fun _ => .bind (.lift _) fun _ => .bind (.mapErr (.writeAll _) _) fun _ => .pure _
  · unfold Host.receiveHello
    exact .bind (.mapErr .ident _) fun _ => .bind (.lift _) fun _ => .bind (.lift _) fun _ =>
      .bind (.mapErr (.packet _ _ _) _) fun _ => .bind (.lift _) fun _ => .bind (.lift _) fun _ =>
      .bind (.lift _) fun _ => .bind (.lift _) fun _ => .bind (.lift _) fun _ => .bind (.lift _)
      fun _ => .bind (.lift _) fun _ => .ite (.fail _) (.pure _)
  · unfold Host.receiveKey
    exact .bind (.withRng _) fun _ => .bind (.mapErr (.packet _ _ _) _) fun _ => .bind (.lift _)
      fun _ => .bind (.lift _) fun _ => .bind (.lift _) fun _ => .bind (.lift _) fun _ => .pure _
  · unfold Host.sendReply
    exact .bind (.lift _) fun _ => .bind (.lift _) fun _ => .bind (.lift _) fun _ =>
      .bind (.lift _) fun _ => .bind (.lift _) fun _ => .bind (.withRng _) fun _ =>
      .bind (.lift _) fun _ => .bind (.mapErr (.writeAll _) _) fun _ => .bind (.lift _) fun _ =>
      .bind (.lift _) fun _ => .bind (.withRng _) fun _ => .bind (.lift _) fun _ =>
      .bind (.mapErr (.writeAll _) _) fun _ => .pure _
  · unfold Host.receiveNewKeys
    exact .bind (.mapErr (.packet _ _ _) _) fun _ => .bind (.lift _) fun _ => .bind (.lift _)
      fun _ => .lift _

/-! ### the whole of `authenticate_new_client` -/

theorem handshake_session {K : Crypto} {ident : Bytes} {s s1 : IoSt} {c : HostClient}
    (hid : Spec.Fits ident) (h : Host.handleNewClient K ident s = (ok c, s1)) :
    c.receiveCipher.counter = 3 ∧ c.sendCipher.counter = 3 ∧ c.sessionIdentifier.length = 32 ∧
      s1.inp.length ≤ s.inp.length ∧ s1.log = s.log ∧ (s.wcap = none → s1.wcap = none) := by
  have ht := Tame.handshake K ident s
  rw [h] at ht
  obtain ⟨pad, raw, hp, ho⟩ := Host.outcome K s hid
  rw [h] at ho
  cases ho with
  | done id pay secret cp r2 raw1 raw2 pay3 r3 _ hr _ hn _ hi =>
    refine ⟨rfl, rfl, K.hash_length _, ?_, ht.1, ht.2⟩
    obtain ⟨⟨o, r, pay2, ⟨⟨r0, hps, hn1⟩, _⟩, _, hn2, _⟩, _, _, _⟩ := hr
    obtain ⟨_, before, k, _, hinp⟩ := C21_sound _ _ _ hps
    obtain ⟨x1, e1, _⟩ := hn1
    obtain ⟨x2, e2, _⟩ := hn2
    obtain ⟨x3, e3, _⟩ := hn
    rw [hi, hinp, e1, e2, e3]
    simp only [List.length_append]
    omega

/-- the state in which the loop starts -/
def startSt (c : HostClient) : AuthSt :=
  { send := c.sendCipher, receive := c.receiveCipher,
    pktBuf := List.replicate 35000 0, mini := List.replicate 256 0 }

theorem startSt_ok (c : HostClient) : (startSt c).Ok :=
  ⟨List.length_replicate .., List.length_replicate ..⟩

/-- after the handshake -/
theorem authenticate_session {K : Crypto} (H : Handlers) {ident : Bytes} {s s1 : IoSt}
    {c : HostClient} (hid : Spec.Fits ident) (h : Host.handleNewClient K ident s = (ok c, s1)) :
    ∃ t, (Server.authenticateNewClient K H ident s).2.log = s.log ++ t ∧
      Spec.Session H c.sessionIdentifier (s.wcap ≠ none) (2 ^ 64 ≤ s.inp.length + 4) s.log
        ((Server.authenticateNewClient K H ident s).1.map (·.user)) t := by
  obtain ⟨hc1, hc2, hsl, hin, hlog, hw⟩ := handshake_session hid h
  have hsid : Spec.Fits c.sessionIdentifier := by rw [Spec.Fits, hsl]; omega
  have hroom : ¬ Room (startSt c) s1 → 2 ^ 64 ≤ s.inp.length + 4 := by
    intro hr
    refine Classical.byContradiction fun hn => hr ?_
    have e1 : (startSt c).send.counter.toNat = 3 := by
      show c.sendCipher.counter.toNat = 3
      rw [hc2]; rfl
    have e2 : (startSt c).receive.counter.toNat = 3 := by
      show c.receiveCipher.counter.toNat = 3
      rw [hc1]; rfl
    rw [Room, e1, e2]
    omega
  have hrun : Server.authenticateNewClient K H ident s = (do
      let st ← Server.service K (startSt c)
      Server.loop K H c.sessionIdentifier st : M Unit Authenticated) s1 := by
    rw [Server.authenticateNewClient, M.bind_ok (a := c) (s' := s1) (by rw [M.mapErr_run, h]; rfl)]
    rfl
  rw [hrun, M.bind_run]
  have hstart := startSt_ok c
  generalize startSt c = st0 at hroom hstart ⊢
  have hs := service_ok K hstart s1
  revert hs
  rcases Server.service K st0 s1 with ⟨r, s2⟩
  intro hs
  cases r with
  | err e => exact absurd hs id
  | panic =>
    obtain ⟨t, hl, hses⟩ := hs
    refine ⟨t, by rw [← hlog]; exact hl, ?_⟩
    show Spec.Session _ _ _ _ _ R.panic t
    cases hses with
    | noService => exact .noService
    | otherMessage h => exact .otherMessage h
    | serviceWrite w h => exact .serviceWrite (fun w' => w (hw w')) h
    | serviceOverflow o h => exact .serviceOverflow (hroom o) h
  | ok st =>
    obtain ⟨p, hl, hreq, hok, ⟨hlen, hw2, hroom2⟩, _⟩ := hs
    obtain ⟨t, u, h1, h2, h3⟩ := loopN_ok K H hsid (s2.inp.length + 1) st s2 hok (by omega)
    rw [hlog] at hl
    rw [hl] at h1 h2 h3
    refine ⟨[.received p, .sent Spec.acceptReply] ++ t ++ u, ?_, .served hreq h2 ?_⟩
    · rw [← List.append_assoc, ← List.append_assoc]
      exact h1
    · exact h3.mono (fun w w' => w (hw2 (hw w'))) (fun o => hroom (fun r => o (hroom2 r)))

end Nora
