import Verif.Lemmas.Flow
/-
The bytes and random numbers of the parts of a connection.
-/
namespace Nora
open R

/-! ### receiving and sending -/

theorem In.recv_suffix (K : Crypto) (c : ChaCha) (buf : Bytes) (s : IoSt) (h4 : 4 ≤ buf.length) :
    ∃ v, s.inp = v ++ (In.recv K c buf s).2.inp := by
  rcases In.recv_cases K c buf s h4 with ⟨_, e⟩ | ⟨l, r, n, h1, h2, h3, h4', u, h5⟩
  · exact ⟨s.inp, by rw [e]; simp⟩
  rcases h5 with ⟨_, e⟩ | ⟨_, _, e⟩ | ⟨body, tag, rest', h5, h6, h7, h8, h9⟩
  · exact ⟨l, by rw [e]; exact h1⟩
  · exact ⟨s.inp, by rw [e]; simp⟩
  have : s.inp = l ++ (body ++ tag) ++ rest' := by rw [h1, h6]; simp
  rcases h9 with ⟨_, e⟩ | ⟨_, _, e⟩ | ⟨ht, hc, ⟨payload', padding, g1, g2, g3, e⟩ | ⟨_, _, e⟩⟩
  all_goals exact ⟨l ++ (body ++ tag), by rw [e]; exact this⟩

section basic
variable {ε : Type} {K : Crypto} {D G : Prop}

theorem Flow.recv (snd c : ChaCha) (buf : Bytes) (P : Prop) (hP : P → buf.length = 35000) :
    Flow K D G ⟨snd, c, P⟩ (fun x => some ⟨snd, x.2.1, P ∧ x.2.2.length = buf.length⟩) (fun _ => none)
      (In.recv K c buf) := by
  intro (hf : P) s
  have hb := hP hf
  have h4 : 4 ≤ buf.length := by omega
  rcases In.recv_outcome K c buf s h4 with ⟨x, i, h⟩ | ⟨_, i, h⟩ | ⟨hc, p, c', buf', i, h, _, h1, h2, h3⟩
  · obtain ⟨v, hv⟩ := In.recv_suffix K c buf s h4
    rw [h] at hv ⊢
    exact ⟨[], [], [], v, s.rng, by simp, by simp, by simpa using hv, .nil, .nil,
      by simp [endsAfter]⟩
  · obtain ⟨v, hv⟩ := In.recv_suffix K c buf s h4
    rw [h] at hv ⊢
    exact ⟨[], [], [], v, s.rng, by simp, by simp, by simpa using hv, .nil, .nil,
      by simp [endsAfter]⟩
  · obtain ⟨raw, g1, g2, g3⟩ := In.recv_sealed h4 h
    rw [h]
    refine ⟨[.received p], [], [] ++ Spec.sealed K (Spec.keysOf c) c.counter.toNat raw ++ [], [], s.rng, rfl,
      by simp, by simpa using g3, .nil, .cons (by simp) g1 (by omega) hc .nil, ?_⟩
    rintro e' ⟨⟩
    exact ⟨by simp, rfl, ⟨hf, h3⟩, rfl, rfl, h2, h1⟩

/-- one packet, written completely or in part -/
theorem Carries.sent {snd c' rcv : ChaCha} {P P' : Prop} {s s' : IoSt} {p raw : Bytes} {j m : Nat}
    (hj : Spec.LeastPad .b8 false p.length j) (hp : Spec.PacketOf .b8 false p (s.rng.bytes j) raw)
    (hl : raw.length + 16 ≤ 35000) (hc : snd.counter.toNat + 1 < 2 ^ 64) (hlog : s'.log = s.log ++ [.sent p])
    (hinp : s'.inp = s.inp)
    (hout : s'.out = s.out ++ (Spec.sealed K (Spec.keysOf snd) snd.counter.toNat raw).take m)
    (hcut : m < (Spec.sealed K (Spec.keysOf snd) snd.counter.toNat raw).length → D)
    (hrng : s'.rng = s.rng.skip j)
    (hP : P') (hk : Spec.keysOf c' = Spec.keysOf snd)
    (hcc : c'.counter.toNat = snd.counter.toNat + 1) :
    Carries K D G ⟨snd, rcv, P⟩ s s' (some ⟨c', rcv, P'⟩) := by
  refine ⟨[.sent p], _, [], [], s.rng.skip j, hlog, hout, by simp [hinp], ?_, .nil, ?_⟩
  · have := Spec.Written.cons (K := K) (k := Spec.keysOf snd) (cut := D)
      (fail := some (⟨c', rcv, P'⟩ : Ends) = none) (m := m) hj hp hl hc (fun h => .inl (hcut h)) .nil
    rwa [List.append_nil] at this
  · rintro e' ⟨⟩
    exact ⟨by simp, hrng, hP, hk, hcc, rfl, rfl⟩

/-- the last packet -/
theorem Carries.sentLast {e : Ends} {s s' : IoSt} {p raw : Bytes} {j : Nat}
    (hj : Spec.LeastPad .b8 false p.length j) (hp : Spec.PacketOf .b8 false p (s.rng.bytes j) raw)
    (hl : raw.length + 16 ≤ 35000) (hc : e.send.counter.toNat + 1 < 2 ^ 64) (hlog : s'.log = s.log ++ [.sent p])
    (hinp : s'.inp = s.inp)
    (hout : ∃ m, s'.out = s.out ++ (Spec.sealed K (Spec.keysOf e.send) e.send.counter.toNat raw).take m) :
    Carries K D G e s s' none := by
  obtain ⟨m, hout⟩ := hout
  refine ⟨[.sent p], _, [], [], s.rng.skip j, hlog, hout, by simp [hinp], ?_, .nil, by simp⟩
  have := Spec.Written.cons (K := K) (k := Spec.keysOf e.send) (cut := D)
    (fail := (none : Option Ends) = none) (m := m) hj hp hl hc (fun _ => .inr ⟨rfl, rfl⟩) .nil
  rwa [List.append_nil] at this

theorem Flow.serverSend {snd rcv : ChaCha} {buf : Bytes} {P : Prop} {m : Message} {e : Bytes}
    (hm : Writes m e) (hP : P → 5 ≤ buf.length ∧ buf.length ≤ 35000) :
    Flow K D G ⟨snd, rcv, P⟩ (fun x => some ⟨x.1, rcv, P ∧ x.2.length = buf.length⟩) (fun _ => none)
      (Server.send K snd buf m) := by
  intro (hf : P) s
  obtain ⟨hb1, hb2⟩ := hP hf
  have len : ∀ {j raw}, Spec.FitsBuf buf.length e.length → Spec.LeastPad .b8 false e.length j →
      Spec.PacketOf .b8 false e (s.rng.bytes j) raw → raw.length + 16 ≤ 35000 := by
    rintro j raw ⟨k, h1, h2⟩ hj hp
    have := leastPad_unique h1 hj
    have h5 := congrArg List.length hp.bytes
    simp [Tape.bytes] at h5
    omega
  rcases Server.send_cases K snd buf hm s hb1 (by omega) with
    ⟨hfit, hc, j, raw, hp, hj, ⟨w, c', buf', h1, h2, h3, h4, h5⟩ | ⟨hw, s', h1, h2, h3, h4⟩⟩ |
    ⟨_, s', h1, h2, h3, h4⟩
  · rw [h1]
    exact .sent (m := (Spec.sealed K (Spec.keysOf snd) snd.counter.toNat raw).length) hj hp (len hfit hj hp) hc rfl rfl
      (by rw [List.take_length]) (by omega) rfl ⟨hf, h4⟩ h3 h2
  · rw [h1]
    exact .sentLast hj hp (len hfit hj hp) hc h3 h2 h4
  · rw [h1]
    exact (Carries.refl (K := K) (D := D) (G := G) (s := s) hf).idle h3 h4 h2

end basic

/-! ### authentication -/

section auth
variable {K : Crypto} {D G : Prop}

/-- the ciphers in the loop of authentication -/
def AuthSt.ends (st : AuthSt) : Ends := ⟨st.send, st.receive, st.Ok⟩

/-- the ciphers after an iteration -/
def attemptEnds : AuthSt ⊕ Authenticated → Option Ends
  | .inl st => some st.ends
  | .inr a => some ⟨a.send, a.receive, True⟩

theorem Flow.service (st : AuthSt) :
    Flow K D G st.ends (fun st => some st.ends) (fun _ => none) (Server.service K st) := by
  unfold Server.service
  refine .bind_some (.unwrap (.recv _ _ _ _ fun h => h.pkt)) fun a => ?_
  obtain ⟨data, receive, pktBuf⟩ := a
  simp only
  refine .lift_bind (by simp) fun m _ => .lift_bind (by simp) fun srv _ => .ite (fun hn => ?_) fun _ => .panic
  obtain ⟨name⟩ := srv
  simp only at hn
  subst hn
  refine .bind_some (.serverSend (e := Spec.acceptReply) (writes_of_WF
    (m := .serviceAccept { serviceName := b! "ssh-userauth" }) (by decide : Spec.Fits (b! "ssh-userauth")))
    fun h => by rw [h.1.mini]; omega) fun a => .pure ?_
  rintro e' ⟨⟩
  exact ⟨rfl, rfl, fun h => ⟨h.1.2.trans h.1.1.pkt, h.2.trans h.1.1.mini⟩⟩

theorem Flow.publicKeyExists {e : Ends} (H : Handlers) (a b c d : Bytes) :
    Flow K D G e (fun _ => some e) (fun _ => none) (Server.publicKeyExists H a b c d) := by
  unfold Server.publicKeyExists
  refine .bind_some .getLog fun l => ?_
  split
  · exact .bind_some (.logEvent rfl rfl) fun _ => .pure (by rintro e' ⟨⟩; exact ⟨rfl, rfl, id⟩)
  · exact .bind_some (.logEvent rfl rfl) fun _ => .pure (by rintro e' ⟨⟩; exact ⟨rfl, rfl, id⟩)
  · exact .panic

theorem Flow.authenticate {e : Ends} (H : Handlers) (a b : Bytes) (c : AuthArg) :
    Flow K D G e (fun _ => some e) (fun _ => none) (Server.authenticate H a b c) := by
  unfold Server.authenticate
  refine .bind_some .getLog fun l => ?_
  split
  · exact .bind_some (.logEvent rfl rfl) fun _ => .pure (by rintro e' ⟨⟩; exact ⟨rfl, rfl, id⟩)
  · exact .bind_some (.logEvent rfl rfl) fun _ => .pure (by rintro e' ⟨⟩; exact ⟨rfl, rfl, id⟩)
  · exact .panic

theorem Flow.probe {P : Prop} (H : Handlers) (st : AuthSt) (ua : Auth.Request) {algorithm blob : Bytes}
    (h1 : Spec.Fits algorithm) (h2 : Spec.Fits blob) (hP : P → st.Ok) :
    Flow K D G ⟨st.send, st.receive, P⟩ (fun st => some st.ends) (fun _ => none)
      (Server.probe K H st ua algorithm blob) := by
  unfold Server.probe
  refine .lift_bind (by simp) fun key _ => .bind_some (.publicKeyExists H _ _ _ _) fun known => ?_
  have : ∃ e, Writes (if known then .userAuth (.publicKeyOk { algorithm, blob }) else Server.failure) e := by
    cases known
    · exact ⟨_, failure_writes⟩
    · exact ⟨_, writes_of_WF (m := .userAuth (.publicKeyOk { algorithm, blob })) ⟨h1, h2⟩⟩
  obtain ⟨e, he⟩ := this
  refine .bind_some (.serverSend he fun h => by rw [(hP h).mini]; omega) fun a => .pure ?_
  rintro e' ⟨⟩
  exact ⟨rfl, rfl, fun h => ⟨(hP h.1).pkt, h.2.trans (hP h.1).mini⟩⟩

theorem Flow.check {P : Prop} (H : Handlers) (sid : Bytes) (st : AuthSt) (ua : Auth.Request)
    (hP : P → st.Ok) :
    Flow K D G ⟨st.send, st.receive, P⟩ attemptEnds (fun _ => none) (Server.check K H sid st ua) := by
  unfold Server.check
  refine .lift_bind (by simp) fun arg _ => .bind_some (.authenticate H _ _ _) fun r => ?_
  cases r with
  | some u =>
    refine .bind_some (.serverSend success_writes fun h => by rw [(hP h).pkt]; omega) fun a => .pure ?_
    rintro e' ⟨⟩
    exact ⟨rfl, rfl, fun _ => trivial⟩
  | none =>
    refine .bind_some (.serverSend failure_writes fun h => by rw [(hP h).pkt]; omega) fun a => .pure ?_
    rintro e' ⟨⟩
    exact ⟨rfl, rfl, fun h => ⟨h.2.trans (hP h.1).pkt, (hP h.1).mini⟩⟩

theorem Flow.attempt (H : Handlers) (sid : Bytes) (st : AuthSt) :
    Flow K D G st.ends attemptEnds (fun _ => none) (Server.attempt K H sid st) := by
  unfold Server.attempt
  refine .bind_some (.mapErr _ (.recv _ _ _ _ fun h => h.pkt) (by simp)) fun a => ?_
  obtain ⟨data, receive, pktBuf⟩ := a
  simp only
  refine .lift_bind (by simp) fun m hm => .lift_bind (by simp) fun ua hua => .lift_bind (by simp)
    fun r hr => ?_
  have hok : st.Ok ∧ pktBuf.length = st.pktBuf.length → AuthSt.Ok { st with receive, pktBuf } :=
    fun h => ⟨h.2.trans h.1.pkt, h.1.mini⟩
  split
  · rename_i algorithm blob hmeth
    have hp : Message.parse data = ok m := by
      cases h : Message.parse data with
      | ok m' => rw [h] at hm; exact congrArg ok (R.ok.inj hm)
      | err e => rw [h] at hm; cases hm
      | panic => rw [h] at hm; cases hm
    have hm' : m = .userAuth ua := by
      cases m with
      | userAuth x => simp only [Message.intoUserAuth, R.unwrap, R.ok.injEq] at hua; rw [hua]
      | _ => cases hua
    have hu' : ua = .request r := by
      cases ua with
      | request x => simp only [UserAuth.intoRequest, R.okOr, R.mapErr, R.ok.injEq] at hr; rw [hr]
      | _ => cases hr
    subst hm' hu'
    obtain ⟨user, service, method⟩ := r
    simp only at hmeth
    subst hmeth
    obtain ⟨_, _, h1, h2⟩ := Spec.Legal.fits ((Message.parse_iff rfl).mp hp :
      Spec.Legal (Spec.request user service (.publicKeyBlob algorithm blob)) data)
    refine .bind_some (.probe H { st with receive, pktBuf } _ h1 h2 hok) fun st => .pure ?_
    rintro e' ⟨⟩
    exact ⟨rfl, rfl, id⟩
  · exact .check H sid { st with receive, pktBuf } r hok

end auth

/-! ### the session -/

section session
variable {K : Crypto} {D G : Prop}

/-- the ciphers in a session -/
def Client.St.ends (st : Client.St) : Ends := ⟨st.send, st.receive, st.buf.length = 35000⟩

def stopEnds : Client.Stop → Option Ends
  | .dropped st => some st.ends
  | _ => none

def sumEnds : Client.St ⊕ Unit → Option Ends
  | .inl st => some st.ends
  | .inr _ => none

theorem Flow.clientSend {cut : Client.Cut} {st : Client.St} {m : Message} {e : Bytes} (hm : Writes m e)
    (he : e.length ≤ 34968) (hD : ∀ n, cut = .write n → D) :
    Flow K D G st.ends (fun st => some st.ends) stopEnds (Client.send K cut st m) := by
  intro (hf : st.buf.length = 35000) s
  obtain ⟨k, hk, ⟨hc, raw, c', buf', hp, hs, hr, h1, h2, h3⟩ | ⟨hc, hs⟩⟩ :=
    Out.seal_cases K st.send st.buf hm s (by omega) (by omega)
  · have hfine : buf'.length = 35000 := by omega
    have hlen : raw.length + 16 ≤ 35000 := by
      have h5 := congrArg List.length hp.bytes
      simp [Tape.bytes] at h5
      have h6 : k < 12 := by
        obtain ⟨h4, ha, hm⟩ := hk
        refine Classical.byContradiction fun hc => ?_
        have := hm (k - 8) (by omega) (by simp only [Spec.Aligned, Spec.blockBytes] at *; omega)
        omega
      omega
    generalize henc : Spec.sealed K (Spec.keysOf st.send) st.send.counter.toNat raw = enc at hs
    -- writing a part of the packet
    have part : ∀ (n : Nat) (z : M Client.Stop Client.St) (r : R Client.Stop Client.St),
        (∀ s, z s = (r, s)) → (n < enc.length → D) →
        endsAfter (fun st : Client.St => some st.ends) stopEnds r =
          some (Client.St.ends { st with send := c', buf := buf' }) →
        Carries K D G st.ends s
          (((M.writeAll (enc.take n)).mapErr (fun _ => Client.Stop.out) >>= fun _ => z)
            { s with rng := s.rng.skip k, log := s.log ++ [.sent e] }).2
          (endsAfter (fun st : Client.St => some st.ends) stopEnds
            (((M.writeAll (enc.take n)).mapErr (fun _ => Client.Stop.out) >>= fun _ => z)
            { s with rng := s.rng.skip k, log := s.log ++ [.sent e] }).1) := by
      intro n z r hz hcut hr
      rcases M.writeAll_cases (enc.take n) { s with rng := s.rng.skip k, log := s.log ++ [.sent e] } with
          ⟨w, hw, hnn⟩ | ⟨hw, n', hs'⟩
      · rw [M.bind_ok (by rw [M.mapErr_run, hw]; rfl), hz]
        simp only [hr]
        refine .sent hk hp hlen hc (m := n) rfl rfl ?_ ?_ rfl hfine h2 h1
        · rw [henc]
        · rw [henc]; exact hcut
      · rw [M.bind_err (by rw [M.mapErr_run, hs']; rfl)]
        refine .sentLast hk hp hlen hc rfl rfl ⟨min n' n, ?_⟩
        show s.out ++ (enc.take n).take n' =
          s.out ++ (Spec.sealed K (Spec.keysOf st.send) st.send.counter.toNat raw).take (min n' n)
        rw [List.take_take, henc]
    have whole : Carries K D G st.ends s (Client.sendAll K st m s).2
        (endsAfter (fun st => some st.ends) stopEnds (Client.sendAll K st m s).1) := by
      have := part enc.length (Pure.pure { st with send := c', buf := buf' }) _ (fun _ => rfl) (by omega) rfl
      rw [List.take_length] at this
      rw [Client.sendAll, M.bind_ok (by rw [M.mapErr_run, hs]; rfl)]
      exact this
    by_cases hcut : ∃ n, cut = .write n
    · obtain ⟨n, rfl⟩ := hcut
      rw [Client.send, M.bind_ok (by rw [M.mapErr_run, hs]; rfl)]
      simp only
      by_cases hn : n < enc.length
      · rw [if_pos hn]
        exact part n (M.fail (.dropped { st with send := c', buf := buf' })) _ (fun _ => rfl) (fun _ => hD n rfl) rfl
      · rw [if_neg hn]
        rw [Client.sendAll, M.bind_ok (by rw [M.mapErr_run, hs]; rfl)] at whole
        exact whole
    · rw [Client.send_plain K st m fun n h => hcut ⟨n, h⟩]
      exact whole
  · have hpanic : Client.send K cut st m s = (R.panic, { s with rng := s.rng.skip k }) := by
      cases cut with
      | write n =>
        rw [Client.send, M.bind_panic (by rw [M.mapErr_run, hs]; rfl)]
      | _ =>
        simp only [Client.send]
        rw [Out.send_seal, M.bind_panic
          (by rw [M.mapErr_run, M.bind_panic hs]; rfl)]
    rw [hpanic]
    exact (Carries.refl (e := st.ends) (K := K) (D := D) (G := G) (s := s) hf).idle rfl rfl rfl

section client
variable (H : ConnHandlers) (user : Nat) {cut : Client.Cut} (st : Client.St)

theorem Flow.unwrap_bind {ε δ α β : Type} {e : Ends} {g : β → Option Ends} {h : ε → Option Ends}
    {x : R δ α} {f : α → M ε β} (hf : ∀ a, x = ok a → Flow K D G e g h (f a)) :
    Flow K D G e g h (M.lift x.unwrap >>= f) := by
  cases x with
  | ok a => exact .lift_bind (fun b hb => nomatch hb) fun a ha => hf a (congrArg ok (R.ok.inj ha))
  | _ => exact .lift_bind (fun b hb => nomatch hb) fun a ha => nomatch ha

theorem Flow.same {e : Ends} {a : Client.St} (h1 : a.send = e.send) (h2 : a.receive = e.recv)
    (h3 : e.fine → a.buf.length = 35000) :
    Flow K D G e (fun st => some st.ends) stopEnds (Pure.pure a : M Client.Stop Client.St) := by
  refine .pure ?_
  rintro e' ⟨⟩
  exact ⟨h1, h2, h3⟩

theorem Flow.dropped {e : Ends} {α : Type} {g : α → Option Ends} {a : Client.St} (h1 : a.send = e.send)
    (h2 : a.receive = e.recv) (h3 : e.fine → a.buf.length = 35000) :
    Flow K D G e g stopEnds (M.fail (.dropped a) : M Client.Stop α) := by
  refine .fail ?_
  rintro e' ⟨⟩
  exact ⟨h1, h2, h3⟩

theorem Flow.proc {ε : Type} {h : ε → Option Ends} {e : Ends} (p : ProcEvent) :
    Flow K D G e (fun _ => some e) h (M.logEvent (.proc p) : M ε Unit) := .logEvent rfl rfl

theorem Flow.closeStdin {e : Ends} (ch : Client.Chan) :
    Flow K D G e (fun _ => some e) stopEnds (Client.closeStdin ch) := by
  unfold Client.closeStdin
  split
  · exact .proc _
  · refine .pure ?_
    rintro e' ⟨⟩
    exact ⟨rfl, rfl, id⟩

theorem Flow.opened (o : Chan.Open) (hD : ∀ n, cut = .write n → D) :
    Flow K D G st.ends (fun st => some st.ends) stopEnds (Client.opened K cut st o) := by
  unfold Client.opened
  refine .lift_bind (fun b hb => ?_) fun a _ => ?_
  · rcases C39_insert_full (ε := Client.Stop) st.channels { peer := o.senderChannel, stdin := none }
      with ⟨id, ch, hi⟩ | ⟨hi, _⟩
    · rw [hi] at hb; cases hb
    · rw [hi] at hb; cases hb
  · exact .clientSend (st := { st with channels := a.2 }) (writes_of_WF (by trivial))
      (by simp [Spec.encode, Spec.encodeT, Spec.body]) hD

theorem Flow.spawn (id : UInt32) (ch : Client.Chan) (ty : SpawnType) :
    Flow K D G st.ends (fun x => some x.1.ends) stopEnds (Client.spawn H user cut st id ch ty) := by
  unfold Client.spawn
  refine .bind_some .getLog fun _ => .bind_some (.proc _) fun _ => .ite
    (fun _ => .dropped rfl rfl fun h => h) fun _ => ?_
  refine .unwrap_bind fun io _ => .bind_some (.proc _) fun _ => .bind_some (.closeStdin _) fun _ =>
    .pure ?_
  rintro e' ⟨⟩
  exact ⟨rfl, rfl, fun h => h⟩

theorem Flow.reply (w : Bool) {m : Message} (hm : Spec.WF m) (hl : (Spec.encode m).length ≤ 34968)
    (hD : ∀ n, cut = .write n → D) :
    Flow K D G st.ends (fun st => some st.ends) stopEnds (Client.reply K cut st w m) := by
  unfold Client.reply
  exact .ite (fun _ => .clientSend (writes_of_WF hm) hl hD) fun _ => .same rfl rfl fun h => h

theorem Flow.run (r : Chan.Request) (ch : Client.Chan) (ty : SpawnType) (hD : ∀ n, cut = .write n → D) :
    Flow K D G st.ends (fun st => some st.ends) stopEnds (Client.run K H user cut st r ch ty) := by
  unfold Client.run
  refine .bind_some (.spawn H user st _ _ _) fun a => .bind_some
    (.reply a.1 _ (m := Spec.success ch.peer) trivial (encode_small (.inl rfl)) hD) fun st' => ?_
  unfold Client.newIo
  split
  · exact .same rfl rfl fun h => h
  · exact .same rfl rfl fun h => h

theorem Flow.request (r : Chan.Request) (hD : ∀ n, cut = .write n → D) :
    Flow K D G st.ends (fun st => some st.ends) stopEnds (Client.request K H user cut st r) := by
  unfold Client.request
  split
  · exact .panic
  · rename_i ch _
    refine .unwrap_bind fun q _ => ?_
    cases q with
    | shell => exact .run H user _ _ _ _ hD
    | exec => exact .run H user _ _ _ _ hD
    | pty => exact .reply _ _ (m := Spec.failure ch.peer) trivial (encode_small (.inr (.inl rfl))) hD
    | env => exact .reply _ _ (m := Spec.failure ch.peer) trivial (encode_small (.inr (.inl rfl))) hD
    | _ => exact .panic

theorem Flow.data (d : Chan.Data) :
    Flow K D G st.ends (fun st => some st.ends) stopEnds (Client.data H cut st d) := by
  unfold Client.data
  split
  · exact .panic
  · split
    · exact .panic
    · exact .ite (fun _ => .dropped rfl rfl fun h => h) fun _ => .bind_some .getLog fun _ =>
        .unwrap_bind fun _ _ => .bind_some (.proc _) fun _ => .same rfl rfl fun h => h

theorem Flow.eof (e : Chan.ChanOnly) :
    Flow K D G st.ends (fun st => some st.ends) stopEnds (Client.eof st e) := by
  unfold Client.eof
  split
  · exact .panic
  · exact .bind_some (.closeStdin _) fun _ => .same rfl rfl fun h => h

theorem Flow.close (c : Chan.ChanOnly) :
    Flow K D G st.ends (fun st => some st.ends) stopEnds (Client.close st c) := by
  unfold Client.close
  split
  · exact .same rfl rfl fun h => h
  · exact .bind_some (.closeStdin _) fun _ => .same rfl rfl fun h => h

theorem Flow.inl {e : Ends} {x : M Client.Stop Client.St}
    (hx : Flow K D G e (fun st => some st.ends) stopEnds x) :
    Flow K D G e sumEnds stopEnds (do Pure.pure (.inl (← x)) : M Client.Stop (Client.St ⊕ Unit)) :=
  .bind_some hx fun a => .pure (by rintro e' ⟨⟩; exact ⟨rfl, rfl, id⟩)

theorem Flow.handle (m : Message) (hD : ∀ n, cut = .write n → D) :
    Flow K D G st.ends sumEnds stopEnds (Client.handle K H user cut st m) := by
  unfold Client.handle
  split
  · exact .inl (.opened _ _ hD)
  · exact .inl (.request H user _ _ hD)
  · exact .inl (.data H _ _)
  · exact .inl (.eof _ _)
  · exact .inl (.close _ _)
  · exact .pure (by rintro e' ⟨⟩)
  · exact .pure (by rintro e' ⟨⟩; exact ⟨rfl, rfl, id⟩)
  all_goals exact .panic

theorem Flow.readCut (n : Nat) (hG : G) : Flow K D G st.ends sumEnds stopEnds (Client.readCut K n st) := by
  intro (hf : st.buf.length = 35000) s
  have same : Carries K D G st.ends s s (some st.ends) := .refl hf
  have key : ∀ c : ChaCha, Spec.keysOf c = Spec.keysOf st.receive → c.counter = st.receive.counter →
      n ≤ s.inp.length → n ≤ 35000 →
      Carries K D G st.ends s { s with inp := s.inp.drop n }
        (some (Client.St.ends { st with receive := c, buf := s.inp.take n ++ st.buf.drop n })) := by
    intro c hk hc h1 h2
    refine ⟨[], [], [], s.inp.take n, s.rng, by simp, by simp, by simp, .nil, .nil, ?_⟩
    rintro e' ⟨⟩
    refine ⟨fun _ => hG, rfl, ?_, rfl, rfl, hk, ?_⟩
    · show (s.inp.take n ++ st.buf.drop n).length = 35000
      simp only [List.length_append, List.length_take, List.length_drop]
      omega
    · show c.counter.toNat = _
      rw [hc]; rfl
  rw [Client.readCut]
  split_ifs with h1 h2
  · exact same
  · exact key st.receive rfl rfl (by omega) (by omega)
  · rcases hd : st.receive.decryptLength K (s.inp.take 4) with ⟨lenb, c⟩
    simp only
    cases hv : (u32FromBe lenb : R Unit UInt32) with
    | ok v =>
      simp only
      split_ifs with h3
      · refine key c ?_ ?_ (by omega) (by omega)
        · have := congrArg (fun x => Spec.keysOf x.2) hd
          exact this.symm
        · have := congrArg (fun x => x.2.counter) hd
          exact this.symm
      · exact same
    | err e => exact same
    | panic => exact same

theorem Flow.message (hD : ∀ n, cut = .write n → D) (hG : ∀ n, cut = .read n → G) :
    Flow K D G st.ends sumEnds stopEnds (Client.message K H user cut st) := by
  have main : Flow K D G st.ends sumEnds stopEnds (do
      let (payload, receive, buf) ← (In.recv K st.receive st.buf).mapErr (fun e => Client.Stop.recv e.1)
      let m ← M.lift (Message.parse payload).unwrap
      Client.handle K H user cut { st with receive, buf } m :
      M Client.Stop (Client.St ⊕ Unit)) := by
    refine .bind_some (.mapErr _ (.recv st.send st.receive st.buf (st.buf.length = 35000) fun h => h)
      fun _ => .inl rfl) fun a => .unwrap_bind fun m _ => ?_
    obtain ⟨p, c, buf⟩ := a
    have h := Flow.handle (K := K) (D := D) (G := G) H user { st with receive := c, buf := buf } m hD
    intro hf s
    exact h (hf.2.trans hf.1) s
  cases cut with
  | read n => exact .readCut st n (hG n rfl)
  | _ => exact main

theorem Flow.event (e : Client.Ev) :
    Flow K D G st.ends (fun st => some st.ends) stopEnds (Client.event K st e) := by
  have small : ∀ (ch : UInt32) (d : Bytes), Spec.Fits (d.take 256) ∧
      (Spec.encode (Spec.dataMsg ch (d.take 256))).length ≤ 34968 := by
    intro ch d
    have : (d.take 256).length ≤ 256 := by rw [List.length_take]; omega
    exact ⟨by simp only [Spec.Fits]; omega, dataMsg_length this⟩
  cases e with
  | stdout i r =>
    rw [Client.event]
    split
    · exact .same rfl rfl fun h => h
    · split
      · exact .panic
      · rename_i proc ch _ _ d
        refine .bind_some (.proc _) fun _ => .ite
          (fun _ => .clientSend (writes_of_WF (m := Spec.dataMsg ch (d.take 256)) (small ch d).1)
            (small ch d).2 (by simp)) fun _ => ?_
        refine .bind_some (e1 := fun st => st.ends) (.clientSend (cut := .none) (st := { st with stdouts := st.stdouts.eraseIdx i })
          (writes_of_WF (m := Spec.eofMsg ch) trivial)
          (encode_small (.inr (.inr (.inl rfl)))) (fun n h => nomatch h)) fun st' => ?_
        exact .clientSend (writes_of_WF (m := Spec.closeMsg ch) trivial)
          (encode_small (.inr (.inr (.inr rfl)))) (by simp)
  | stderr i r =>
    rw [Client.event]
    split
    · exact .same rfl rfl fun h => h
    · split
      · exact .panic
      · rename_i proc ch _ _ d
        exact .bind_some (.proc _) fun _ => .ite
          (fun _ => .clientSend (writes_of_WF (m := Spec.dataMsg ch (d.take 256)) (small ch d).1)
            (small ch d).2 (by simp)) fun _ => .same rfl rfl fun h => h
  | exit i status =>
    rw [Client.event]
    split
    · exact .same rfl rfl fun h => h
    · split
      · exact .panic
      · rename_i proc ch _ _ status
        refine .bind_some (.proc _) fun _ => ?_
        rw [exitStatus_eq]
        refine .lift_bind (fun b hb => nomatch hb) fun m hm => ?_
        obtain rfl := R.ok.inj hm
        have hwf : Spec.WF (Spec.exitMsg ch status) := by
          show Spec.Fits (b! "exit-status")
          decide
        exact .clientSend (cut := .none) (st := { st with waits := st.waits.eraseIdx i }) (writes_of_WF hwf)
          (by simp [Spec.exitMsg, Spec.encode, Spec.encodeT, Spec.body]) (fun n h => nomatch h)

theorem Flow.dropReceive {e : Ends} {x : M Client.Stop (Client.St ⊕ Unit)}
    (hx : Flow K D G e sumEnds stopEnds x) : Flow K D G e sumEnds stopEnds (Client.dropReceive x) := by
  intro hf s
  have h := hx hf s
  unfold Client.dropReceive
  split
  · rename_i heq
    rw [heq] at h
    exact h
  · exact h

theorem Flow.step {a : Client.Step} (hD : ∀ n e, a = .event (.write n) e → D)
    (hG : ∀ n e, a = .event (.read n) e → G) :
    Flow K D G st.ends sumEnds stopEnds (Client.step K H user st a) := by
  cases a with
  | message => exact .message H user st (by simp) (by simp)
  | event cut e =>
    have main : Flow K D G st.ends sumEnds stopEnds (do
        match ← Client.dropReceive (Client.message K H user cut st) with
        | .inl st => do Pure.pure (.inl (← Client.event K st e))
        | .inr () => Pure.pure (.inr ()) : M Client.Stop (Client.St ⊕ Unit)) := by
      refine .bind (.dropReceive (.message H user st (fun n h => hD n e (by rw [h]))
        fun n h => hG n e (by rw [h]))) fun a => ?_
      cases a with
      | inl st' => exact .inl ⟨_, rfl, .inl (.event _ _)⟩
      | inr _ => exact .inr fun s => ⟨rfl, rfl⟩
    cases cut with
    | none => exact .inl (.event _ _)
    | _ => exact main

end client

end session

end Nora
