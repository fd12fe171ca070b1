import Verif.Model.SshdMain
import Verif.Props.Whole
/-
C90-C94: the example server as a program: its identification, its host key, who gets in, what users are
allowed, and who can stop it.
-/
namespace Nora
open R Server

/-! ### C90 start and identification -/

/-- RFC 4253 section 4.2: `SSH-protoversion-softwareversion SP comments` without the CR LF, which may be 255
bytes long with it. The versions are printable US-ASCII without whitespace and minus signs. -/
def Spec.Identification (id : Bytes) : Prop :=
  ∃ software comments, id = b! "SSH-2.0-" ++ software ++ (32 :: comments) ∧ software ≠ [] ∧
    (∀ b ∈ software, 33 ≤ b.toNat ∧ b.toNat ≤ 126 ∧ b.toNat ≠ 45) ∧
    (∀ b ∈ comments, 32 ≤ b.toNat ∧ b.toNat ≤ 126) ∧ id.length + 2 ≤ 255

variable {G : KeyGen} {E : Ed25519} {number : Bytes → Nat} {S : Sshd.Sys}

theorem main_eq (G : KeyGen) (E : Ed25519) (number : Bytes → Nat) (S : Sshd.Sys) (entropy : Nat → Byte)
    (bound : Bool) : Sshd.main G E number S entropy bound =
      if bound then ok ⟨G.crypto (G.random (G.seed 0)), Sshd.handlers E number, Sshd.connHandlers S,
        b! "SSH-2.0-nora_ssh example"⟩ else R.panic := by
  cases bound <;> rfl

theorem main_ok {entropy : Nat → Byte} {bound : Bool} {cfg : Config}
    (h : Sshd.main G E number S entropy bound = ok cfg) :
    cfg = ⟨G.crypto (G.random (G.seed 0)), Sshd.handlers E number, Sshd.connHandlers S,
      b! "SSH-2.0-nora_ssh example"⟩ := by
  rw [main_eq] at h
  split at h
  · exact (R.ok.inj h).symm
  · cases h

theorem main_fits {entropy : Nat → Byte} {bound : Bool} {cfg : Config}
    (h : Sshd.main G E number S entropy bound = ok cfg) : Spec.Fits cfg.ident := by
  rw [main_ok h]
  show Spec.Fits (b! "SSH-2.0-nora_ssh example")
  decide

/-- C90: the program starts to serve exactly if it can bind its port. -/
theorem C90_starts (G : KeyGen) (E : Ed25519) (number : Bytes → Nat) (S : Sshd.Sys)
    (entropy : Nat → Byte) (bound : Bool) :
    ((∃ cfg, Sshd.main G E number S entropy bound = ok cfg) ↔ bound = true) ∧
    (Sshd.main G E number S entropy bound = R.panic ↔ bound = false) := by
  rw [main_eq]
  cases bound <;> simp

/-- C90: its identification is as RFC 4253 says -/
theorem C90_identification {entropy : Nat → Byte} {bound : Bool} {cfg : Config}
    (h : Sshd.main G E number S entropy bound = ok cfg) : Spec.Identification cfg.ident := by
  rw [main_ok h]
  show Spec.Identification (b! "SSH-2.0-nora_ssh example")
  exact ⟨b! "nora_ssh", b! "example", by decide, by decide, by decide, by decide, by decide⟩

/-- C90: and each client is sent this first (if its connection takes it), with the first step for it. -/
theorem C90_first {entropy : Nat → Byte} {bound : Bool} {cfg : Config}
    (h : Sshd.main G E number S entropy bound = ok cfg) (ops : List Op) {i : Nat} {c : Conn}
    (hc : (run cfg ops).conns[i]? = some c) :
    ∃ s as, Spec.own i ops = some (s, as) ∧
      (s.wcap = none → (c.phase = .new ∧ c.io.out = s.out) ∨ s.out ++ cfg.ident ++ Spec.crlf <+: c.io.out) := by
  have hid := main_fits h
  obtain ⟨s, as, h1, h2⟩ := C65_output cfg hid ops hc
  refine ⟨s, as, h1, fun hw => ?_⟩
  have ho : s.out ++ cfg.ident ++ Spec.crlf <+: (Host.handleNewClient cfg.K cfg.ident s).2.out := by
    obtain ⟨pad, raw, -, ho⟩ := Host.outcome cfg.K s hid
    generalize Host.handleNewClient cfg.K cfg.ident s = x at ho
    obtain ⟨r, s'⟩ := x
    have key : ∀ w, s'.out = s.out ++ (cfg.ident ++ Spec.crlf ++ raw) ++ w →
        s.out ++ cfg.ident ++ Spec.crlf <+: s'.out := fun w e => ⟨raw ++ w, by rw [e]; simp⟩
    cases ho with
    | helloWrite n s' g => exact absurd hw g
    | early e s' _ g => exact key [] (by rw [g, List.append_nil])
    | window0 id r s' _ _ g => exact key [] (by rw [g, List.append_nil])
    | unsupported id pay o r s' _ _ g => exact key [] (by rw [g, List.append_nil])
    | noKey id pay o r e s' _ _ g => exact key [] (by rw [g, List.append_nil])
    | window1 id pay o r s' _ _ g => exact key [] (by rw [g, List.append_nil])
    | badKey id pay o r pay2 r2 s' _ _ g => exact key [] (by rw [g, List.append_nil])
    | replyWrite id pay secret cp r2 raw1 raw2 n s' _ _ g => exact key _ g
    | noNewKeys id pay secret cp r2 raw1 raw2 e s' _ g => exact key _ g
    | window2 id pay secret cp r2 raw1 raw2 s' _ g => exact key _ g
    | badNewKeys id pay secret cp r2 raw1 raw2 pay3 r3 e s' _ g => exact key _ g
    | otherMessage id pay secret cp r2 raw1 raw2 pay3 r3 m s' _ g => exact key _ g
    | done id pay secret cp r2 raw1 raw2 pay3 r3 s' _ g => exact key _ g
  rcases h2 with h2 | ⟨-, h2, -⟩ | ⟨cl, s1, t, w, r', h2, -, h3, -⟩
  · exact .inl h2
  · exact .inr (h2 ▸ ho)
  · rw [h2] at ho
    exact .inr (h3 ▸ ho.trans (List.prefix_append ..))

/-! ### C91 the host key -/

/-- C91: the key of the host depends on the randomness of the system, if that of the library does on its own. -/
def C91_statement : Prop :=
  ∀ (G : KeyGen) (E : Ed25519) (number : Bytes → Nat) (S : Sshd.Sys),
    (∃ r r', (G.crypto (G.random r)).hostPoint ≠ (G.crypto (G.random r')).hostPoint) →
    ∃ entropy entropy' cfg cfg', Sshd.main G E number S entropy true = ok cfg ∧
      Sshd.main G E number S entropy' true = ok cfg' ∧ cfg.K.hostPoint ≠ cfg'.K.hostPoint

/-- The key, and so each signature, are the same on each machine and in each run: everyone has them who has
the source. -/
theorem C91_constant {entropy entropy' : Nat → Byte} {bound bound' : Bool} {cfg cfg' : Config}
    {E' : Ed25519} {number' : Bytes → Nat} {S' : Sshd.Sys}
    (h : Sshd.main G E number S entropy bound = ok cfg)
    (h' : Sshd.main G E' number' S' entropy' bound' = ok cfg') :
    cfg.K.hostPoint = cfg'.K.hostPoint ∧ ∀ m, cfg.K.sign m = cfg'.K.sign m := by
  rw [main_ok h, main_ok h']
  exact ⟨rfl, fun _ => rfl⟩

/-- some key generator, for the examples: the key is the first byte -/
def someKeyGen : KeyGen where
  Secret := Byte
  seed n i := UInt8.ofNat (n.toNat + i)
  random r := r 0
  crypto b := { Crypto.flat with hostPoint := List.replicate 65 b, hostPoint_length := by simp }

def someSys : Sshd.Sys := { shell := some (b! "sh"), start := fun _ _ => true, write := fun _ _ d => ok d.length }

/-- C91 is false. -/
theorem C91_refuted : ¬ C91_statement := by
  intro h
  obtain ⟨_, _, _, _, h1, h2, h3⟩ := h someKeyGen someEd25519 List.length someSys
    ⟨fun _ => 0, fun _ => 1, by decide⟩
  exact h3 (C91_constant h1 h2).1

/-- The part of C91 that holds: the key is one the library has made from the seed 0.

Missing: that the seed is random, which is false (`C91_refuted`). -/
theorem C91_key_partial {entropy : Nat → Byte} {bound : Bool} {cfg : Config}
    (h : Sshd.main G E number S entropy bound = ok cfg) :
    cfg.K.hostPoint = (G.crypto (G.random (G.seed 0))).hostPoint ∧
      cfg.K.sign = (G.crypto (G.random (G.seed 0))).sign := by
  rw [main_ok h]
  exact ⟨rfl, rfl⟩

/-! ### C92 keys of users -/

/-- C92: not everyone who has some key gets in as everyone: some user does not get in with some key, though
the signature is valid. -/
def C92_statement : Prop :=
  ∀ (E : Ed25519), (∃ key message signature, Spec.ValidSignature E key message signature) →
    ∃ user service key message signature, Spec.Utf8 user ∧
      Spec.ValidSignature E key message signature ∧
      ∀ name, Sshd.authenticate E user service (.publicKey (b! "ssh-ed25519") key signature message) ≠
        ok name

/-- Any key is as good as any other, for any user. -/
theorem C92_anyone (E : Ed25519) (user service key message signature : Bytes) (hu : Spec.Utf8 user)
    (hv : Spec.ValidSignature E key message signature) :
    Sshd.authenticate E user service (.publicKey (b! "ssh-ed25519") key signature message) = ok user :=
  (C58_authenticated ..).mpr ⟨rfl, hu, _, _, _, rfl, hv⟩

/-- C92 is false. -/
theorem C92_refuted : ¬ C92_statement := by
  intro h
  obtain ⟨user, service, key, message, signature, h1, h2, h3⟩ := h someEd25519
    ⟨List.replicate 32 1, [], List.replicate 32 1 ++ List.replicate 32 0, by
      refine ⟨?_, ?_, ?_⟩ <;> decide⟩
  exact h3 user (C92_anyone _ _ _ _ _ _ h1 h2)

/-- For a whole connection: whoever has completed the handshake and can sign with some key, gets in as any
user, with a request for the service and one for authentication. -/
theorem C92_gets_in {entropy : Nat → Byte} {bound : Bool} {cfg : Config}
    (hm : Sshd.main G E number S entropy bound = ok cfg) (s s1 : IoSt)
    (c : HostClient) (p0 p rest user service key signature : Bytes)
    (h : Host.handleNewClient cfg.K cfg.ident s = (ok c, s1)) (hw : s.wcap = none)
    (hlen : s.inp.length + 4 < 2 ^ 64) (hp0 : Spec.ServiceRequested p0)
    (hp : Spec.Legal (Spec.request user service (.publicKeySigned (b! "ssh-ed25519")
      (Spec.tagged (b! "ssh-ed25519") key) (Spec.tagged (b! "ssh-ed25519") signature))) p)
    (hsize : (Spec.signData c.sessionIdentifier user service (b! "ssh-ed25519")
      (Spec.tagged (b! "ssh-ed25519") key)).length ≤ 1024)
    (hv : Spec.ValidSignature E key (Spec.signData c.sessionIdentifier user service
      (b! "ssh-ed25519") (Spec.tagged (b! "ssh-ed25519") key)) signature)
    (hu : Spec.Utf8 user)
    (hi : Spec.Arrive cfg.K (Spec.keysOf c.receiveCipher) 3 [p0, p] s1.inp rest) :
    ∃ a s', Server.authenticateNewClient cfg.K cfg.H cfg.ident s = (ok a, s') ∧
      a.user = number user ∧ s'.inp = rest := by
  have hH : cfg.H = Sshd.handlers E number := by rw [main_ok hm]
  rw [hH]
  exact C58_served cfg.K E number cfg.ident s s1 c p0 p rest user service key signature (main_fits hm) h hw
    hlen hp0 hp hsize hv hu hi

/-- The part of C92 that holds: one gets in only with a valid signature of the key one has shown, for this
connection and this user.

Missing: that the key is one of the user, which is false (`C92_refuted`). -/
theorem C92_signature_partial {entropy : Nat → Byte} {bound : Bool} {cfg : Config}
    (hm : Sshd.main G E number S entropy bound = ok cfg) (s s' : IoSt) (a : Authenticated)
    (h : Server.authenticateNewClient cfg.K cfg.H cfg.ident s = (ok a, s')) :
    ∃ c s1, Host.handleNewClient cfg.K cfg.ident s = (ok c, s1) ∧
      ∃ pre p user service key signature,
        s'.log = s.log ++ pre ++ [.received p, .auth user service (.publicKey (b! "ssh-ed25519") key
          signature (Spec.signData c.sessionIdentifier user service (b! "ssh-ed25519")
            (Spec.tagged (b! "ssh-ed25519") key))) (some a.user), .sent Spec.successReply] ∧
        Spec.ValidSignature E key (Spec.signData c.sessionIdentifier user service (b! "ssh-ed25519")
          (Spec.tagged (b! "ssh-ed25519") key)) signature ∧
        Spec.Utf8 user ∧ a.user = number user := by
  have hH : cfg.H = Sshd.handlers E number := by rw [main_ok hm]
  rw [hH] at h
  obtain ⟨c, s1, h1, pre, p, user, service, key, signature, h2, -, h3, h4, h5⟩ :=
    C58_session cfg.K E number cfg.ident s s' a (main_fits hm) h
  exact ⟨c, s1, h1, pre, p, user, service, key, signature, h2, h3, h4, h5⟩

/-! ### C93 rights of users -/

/-- C93: what is started for a user depends on who it is. -/
def C93_statement : Prop :=
  ∃ (S : Sshd.Sys) (log : List Event) (ty : SpawnType) (user user' : Nat),
    (Sshd.connHandlers S).spawn log user ty ≠ (Sshd.connHandlers S).spawn log user' ty

/-- The sessions of all users are the same: every user runs the same programs with the rights of the
server. -/
theorem C93_same (K : Crypto) (S : Sshd.Sys) (user user' : Nat) (st : Client.St)
    (sched : List Client.Step) (s : IoSt) :
    Client.steps K (Sshd.connHandlers S) user st sched s =
      Client.steps K (Sshd.connHandlers S) user' st sched s := by
  have hstep : ∀ st a, Client.step K (Sshd.connHandlers S) user st a =
      Client.step K (Sshd.connHandlers S) user' st a := by
    intro st a
    rfl
  induction sched generalizing st s with
  | nil => rfl
  | cons a sched ih =>
    simp only [Client.steps, hstep, M.bind_run]
    rcases Client.step K (Sshd.connHandlers S) user' st a s with ⟨r, s1⟩
    cases r with
    | ok x =>
      cases x with
      | inl st' => exact ih st' s1
      | inr u => rfl
    | err e => rfl
    | panic => rfl

/-- C93 is false. -/
theorem C93_refuted : ¬ C93_statement := by
  rintro ⟨S, log, ty, user, user', h⟩
  exact h rfl

/-- The part of C93 that holds: a process is started only on a connection where a user has signed.

Missing: that the process has the rights of this user, which is false (`C93_refuted`). -/
theorem C93_started_partial {entropy : Nat → Byte} {bound : Bool} {cfg : Config}
    (hm : Sshd.main G E number S entropy bound = ok cfg) (ops : List Op) {i : Nat} {c : Conn}
    (hc : (run cfg ops).conns[i]? = some c) :
    ∃ s as t, Spec.own i ops = some (s, as) ∧ c.io.log = s.log ++ t ∧
      ∀ pre n i o e post, t = pre ++ .proc (.started n i o e) :: post →
        ∃ cl s1 user service key signature, Host.handleNewClient cfg.K cfg.ident s = (ok cl, s1) ∧
          Spec.ValidSignature E key (Spec.signData cl.sessionIdentifier user service
            (b! "ssh-ed25519") (Spec.tagged (b! "ssh-ed25519") key)) signature ∧ Spec.Utf8 user := by
  have hid := main_fits hm
  obtain rfl := main_ok hm
  obtain ⟨s, as, t, h1, h2, h3⟩ := C64_sshd _ E number S _ hid ops hc
  refine ⟨s, as, t, h1, h2, fun pre n i o e post ht => ?_⟩
  obtain ⟨cl, s1, p, user, service, key, signature, g1, -, -, g2, g3, -⟩ := h3 _ _ _ ht
  exact ⟨cl, s1, user, service, key, signature, g1, g2, g3⟩

/-! ### C94 who can stop the server -/

/-- C94: clients that are not authenticated do not stop the server. -/
def C94_statement : Prop :=
  ∀ (G : KeyGen) (E : Ed25519) (number : Bytes → Nat) (S : Sshd.Sys) (entropy : Nat → Byte)
    (bound : Bool) (cfg : Config) (ops : List Op), Sshd.main G E number S entropy bound = ok cfg →
    .acceptPanics ∉ ops →
    (∀ i s as, Spec.own i ops = some (s, as) →
      ∀ a s', Server.authenticateNewClient cfg.K cfg.H cfg.ident s ≠ (ok a, s')) →
    (run cfg ops).running = true

/-- as long as an authentication that panics has not done so, it goes on -/
theorem fated_poll {cfg : Config} {s : IoSt} {b : Client.Step} {c : Conn}
    (h2 : AuthInv cfg s c) (hb : busy c.phase = true) (hp : (c.poll cfg b).2 = false)
    (hpanic : (authenticateNewClient cfg.K cfg.H cfg.ident s).1 = R.panic) :
    busy (c.poll cfg b).1.phase = true := by
  obtain ⟨phase, io⟩ := c
  cases phase with
  | new =>
    change io = s at h2
    subst h2
    unfold Conn.poll at hp ⊢
    simp only [Phase.step, M.bind_run, M.mapErr_run] at hp ⊢
    rcases hx : Host.handleNewClient cfg.K cfg.ident io with ⟨r, io1⟩
    rw [hx] at hp
    cases r with
    | ok cl => rfl
    | err e =>
      rw [authenticateNewClient, M.bind_err (by rw [M.mapErr_run, hx]; rfl)] at hpanic
      cases hpanic
    | panic => cases hp
  | service cl =>
    replace h2 : Host.handleNewClient cfg.K cfg.ident s = (ok cl, io) := h2
    have hauth := auth_service h2
    rw [M.bind_run] at hauth
    unfold Conn.poll at hp ⊢
    simp only [step_service, M.bind_run] at hp ⊢
    generalize startSt cl = st0 at hauth hp
    rcases hx : Server.service cfg.K st0 io with ⟨r, io1⟩
    rw [hx] at hauth hp
    cases r with
    | ok st => rfl
    | err e => rw [hauth] at hpanic; cases hpanic
    | panic => cases hp
  | auth sid st =>
    obtain ⟨h3, h4, h5⟩ := h2
    rw [loop_eq cfg.K cfg.H h3 h4, M.bind_run] at h5
    unfold Conn.poll at hp ⊢
    simp only [Phase.step, M.bind_run] at hp ⊢
    rcases hx : attempt cfg.K cfg.H sid st io with ⟨r, io1⟩
    rw [hx] at h5 hp
    cases r with
    | ok x =>
      cases x with
      | inl st' => rfl
      | inr c => rw [h5] at hpanic; cases hpanic
    | err e => rw [h5] at hpanic; cases hpanic
    | panic => cases hp
  | session user st => cases hb
  | ended => cases hb

/-- an authentication that panics does so after enough steps -/
theorem fated_alone {cfg : Config} (hid : Spec.Fits cfg.ident) {s : IoSt}
    (hpanic : (authenticateNewClient cfg.K cfg.H cfg.ident s).1 = R.panic) (as : List Client.Step) :
    busy (Spec.alone cfg s as).phase = true ∨ ∃ pre post, as = pre ++ post ∧ Spec.AlonePanics cfg s pre := by
  induction as using list_snoc_induction with
  | nil => exact .inl rfl
  | snoc as a ih =>
    rcases ih with ih | ⟨pre, post, h1, h2⟩
    · cases hp : ((Spec.alone cfg s as).poll cfg a).2 with
      | true => exact .inr ⟨as ++ [a], [], by simp, as, a, rfl, hp⟩
      | false =>
        rw [alone_snoc]
        exact .inl (fated_poll (alone_inv hid s as).2 ih hp hpanic)
    · exact .inr ⟨pre, post ++ [a], by rw [h1, List.append_assoc], h2⟩

/-- A server stops if it is reached by a client whose authentication panics, once that client has had as many
turns as it sent bytes, and three. -/
theorem C94_stops (cfg : Config) (hid : Spec.Fits cfg.ident) (ops : List Op) (s : IoSt)
    (hr : (run cfg ops).running = true)
    (hp : (Server.authenticateNewClient cfg.K cfg.H cfg.ident s).1 = R.panic)
    (as : List Client.Step) (has : s.inp.length + 3 ≤ as.length) (post : List Op) :
    (run cfg (ops ++ .accept s :: as.map (.poll (run cfg ops).conns.length) ++ post)).running = false := by
  cases hr2 : (run cfg (ops ++ .accept s :: as.map (.poll (run cfg ops).conns.length) ++ post)).running with
  | false => rfl
  | true =>
    exfalso
    replace hr2 := running_before hr2
    have hown := (run_conns ops hr (run cfg ops).conns.length).1
    have o2 : ∀ as : List Client.Step, Spec.own (run cfg ops).conns.length
        (ops ++ .accept s :: as.map (.poll (run cfg ops).conns.length)) = some (s, as) := by
      intro as
      induction as using list_snoc_induction with
      | nil =>
        rw [Spec.own, List.foldl_append]
        simp only [List.map_nil, List.foldl_cons, List.foldl_nil, Spec.ownStep, hown, if_true]
      | snoc as a ih =>
        rw [List.map_append, ← List.cons_append, ← List.append_assoc, List.map_singleton, own_snoc]
        rw [Spec.own] at ih
        simp only [Spec.ownStep, ih, if_true, Option.map_some]
    rcases fated_alone hid hp as with hb | ⟨pre, more, rfl, pre0, a, rfl, hpp⟩
    · rcases C51_authenticated cfg hid s as has with ⟨u, st, e⟩ | e <;> rw [e] at hb <;> cases hb
    · have h1 := C51_stops cfg (ops ++ .accept s :: pre0.map (.poll (run cfg ops).conns.length))
        (run cfg ops).conns.length a s pre0
        (running_before (post := .poll (run cfg ops).conns.length a ::
          more.map (.poll (run cfg ops).conns.length)) (by simpa using hr2))
        (o2 pre0) ⟨pre0, a, rfl, hpp⟩ (more.map (.poll (run cfg ops).conns.length))
      rw [show ops ++ .accept s :: (pre0 ++ [a] ++ more).map (.poll (run cfg ops).conns.length) =
        ops ++ .accept s :: pre0.map (.poll (run cfg ops).conns.length) ++
          .poll (run cfg ops).conns.length a :: more.map (.poll (run cfg ops).conns.length) by simp,
        h1] at hr2
      cases hr2

/-- For example with a password, for any user. -/
theorem C94_password {entropy : Nat → Byte} {bound : Bool} {cfg : Config}
    (hm : Sshd.main G E number S entropy bound = ok cfg) (ops : List Op) (s s1 : IoSt) (c : HostClient)
    (p0 p rest user service password : Bytes) (hr : (run cfg ops).running = true)
    (h : Host.handleNewClient cfg.K cfg.ident s = (ok c, s1)) (hw : s.wcap = none)
    (hlen : s.inp.length + 4 < 2 ^ 64) (hp0 : Spec.ServiceRequested p0)
    (hp : Spec.Legal (Spec.request user service (.password password)) p)
    (hi : Spec.Arrive cfg.K (Spec.keysOf c.receiveCipher) 3 [p0, p] s1.inp rest)
    (as : List Client.Step) (has : s.inp.length + 3 ≤ as.length) (post : List Op) :
    (run cfg (ops ++ .accept s :: as.map (.poll (run cfg ops).conns.length) ++ post)).running = false := by
  refine C94_stops cfg (main_fits hm) ops s hr ?_ as has post
  have hH : cfg.H = Sshd.handlers E number := by rw [main_ok hm]
  rw [hH]
  exact C58_crash cfg.K E number cfg.ident s s1 c p0 p rest user service (.password password)
    (main_fits hm) h hw hlen hp0 (.password hp) (.inl ⟨_, rfl⟩) hi

/-- the handshake of the example client with the example server -/
theorem main_session (ps : List Bytes) (rest : Bytes) :
    ∃ c s1, Host.handleNewClient .flat (b! "SSH-2.0-nora_ssh example") (clientState ps rest) = (ok c, s1) ∧
      Spec.keysOf c.receiveCipher = flatKeys ∧ c.sessionIdentifier = List.replicate 32 7 ∧
      s1.inp = conversation 3 ps ++ rest := by
  obtain ⟨c, s1, h, hi, _⟩ := C32_agreement_partial .flat (b! "SSH-2.0-nora_ssh example")
    (clientState ps rest) (b! "c") _ [5] _ (conversation 3 ps ++ rest) plainKexInit
    (by
      intro a b
      show List.replicate 32 (a.getD 0 0 + b.getD 0 0) = List.replicate 32 (b.getD 0 0 + a.getD 0 0)
      rw [UInt8.add_comm])
    (by decide) rfl (start_client false _) ⟨_, _, _, _, guess_negotiation false⟩
    ⟨_, zpkt_next _ (by decide), _, zpkt_next _ (by decide), rfl⟩
  obtain ⟨_, _, _, _, secret, cp, _, _, _, _, _, _, _, _, _, _, _, _, _, _, _, _, _, hc⟩ :=
    Host.success .flat (by decide) h
  refine ⟨c, s1, h, ?_, ?_, hi⟩
  · rw [hc]
    simp only [sessionOf, cipherOf, Spec.keysOf, Spec.keyBlock, Crypto.flat, flatKeys]
  · rw [hc]; rfl

/-- a key generator that always makes the same key, for the examples -/
def flatKeyGen : KeyGen where
  Secret := Unit
  seed n i := UInt8.ofNat (n.toNat + i)
  random _ := ()
  crypto _ := .flat

/-- a client that asks for the service and sends a password -/
def passwordPayloads : List Bytes :=
  [Spec.encode (.serviceRequest ⟨b! "ssh-userauth"⟩),
   Spec.encode (Spec.request (b! "u") (b! "ssh-connection") (.password (b! "pw")))]

theorem own_accept {s s' : IoSt} {j : Nat} {as as' : List Client.Step} {i : Nat}
    (h : Spec.own i (.accept s :: as.map (.poll j)) = some (s', as')) : s' = s := by
  induction as using list_snoc_induction generalizing as' with
  | nil =>
    simp only [Spec.own, List.map_nil, List.foldl_cons, List.foldl_nil, Spec.ownStep] at h
    split at h
    · cases h; rfl
    · cases h
  | snoc as a ih =>
    rw [List.map_append, ← List.cons_append, List.map_singleton, own_snoc] at h
    simp only [Spec.ownStep] at h
    rw [Spec.own] at ih
    split at h
    · obtain ⟨⟨s2, as2⟩, h1, h2⟩ := Option.map_eq_some_iff.mp h
      cases h2
      exact ih h1
    · exact ih h

/-- C94 is false: a password stops the server. -/
theorem C94_refuted : ¬ C94_statement := by
  intro h
  obtain ⟨c, s1, h1, h2, h3, h4⟩ := main_session passwordPayloads []
  have hs := conversation_stream [] passwordPayloads 3 (by decide)
  rw [← h2, ← h4] at hs
  have hm : Sshd.main flatKeyGen someEd25519 List.length someSys (fun _ => 0) true = ok
    ⟨.flat, Sshd.handlers someEd25519 List.length, Sshd.connHandlers someSys,
      b! "SSH-2.0-nora_ssh example"⟩ := rfl
  have hpanic := C58_crash .flat someEd25519 List.length _ _ s1 c _ _ [] (b! "u") (b! "ssh-connection")
    (.password (b! "pw")) (by decide) h1 rfl (by decide +kernel) (legal_encode (show Spec.Fits _ by decide))
    (.password (legal_encode ⟨by decide, by decide, show Spec.Fits _ by decide⟩)) (.inl ⟨_, rfl⟩) hs
  have hstop := C94_stops _ (main_fits hm) [] (clientState passwordPayloads []) rfl hpanic
    (List.replicate ((clientState passwordPayloads []).inp.length + 3) .message) (by simp) []
  rw [List.append_nil, List.nil_append] at hstop
  rw [h _ _ _ _ _ _ _ _ hm (by simp) ?_] at hstop
  · cases hstop
  · intro i s as hown a s' hok
    rw [own_accept hown] at hok
    rw [hok] at hpanic
    cases hpanic

/-- The ways in which the authentication of a client that has completed the handshake panics: `t` is what
has happened since. `W` must hold if a write fails, `O` if a packet counter is exhausted. -/
inductive Spec.SshdPanics (E : Ed25519) (sid : Bytes) (W O : Prop) : List Event → Prop
  /-- the first packet cannot be received -/
  | noService : SshdPanics E sid W O []
  /-- it is not the service request -/
  | otherMessage {p} : ¬ ServiceRequested p → SshdPanics E sid W O [.received p]
  /-- a later one is not about authentication, asks for a method that is not implemented, or has too much to
  be signed -/
  | fatal {t p} : Fatal sid p → SshdPanics E sid W O (t ++ [.received p])
  /-- the answer to a probe does not fit the small buffer -/
  | tooLarge {t p user service key} : Probe p user service (b! "ssh-ed25519") key →
    ¬ FitsBuf 256 (pkOkReply (b! "ssh-ed25519") key).length →
    SshdPanics E sid W O (t ++ [.received p, .probe user service (b! "ssh-ed25519") key true])
  /-- a password -/
  | password {t p user service pw} : Legal (request user service (.password pw)) p →
    SshdPanics E sid W O (t ++ [.received p])
  /-- a valid signature for a user whose name is not UTF-8 -/
  | name {t p user service key signature} :
    Legal (request user service (.publicKeySigned (b! "ssh-ed25519") (tagged (b! "ssh-ed25519") key)
      (tagged (b! "ssh-ed25519") signature))) p →
    ValidSignature E key (signData sid user service (b! "ssh-ed25519")
      (tagged (b! "ssh-ed25519") key)) signature → ¬ Utf8 user →
    SshdPanics E sid W O (t ++ [.received p])
  | write {t} : W → SshdPanics E sid W O t
  | overflow {t} : O → SshdPanics E sid W O t

theorem sshd_panics {sid : Bytes} {W O : Prop} {l t : List Event}
    (h : Spec.Session (Sshd.handlers E number) sid W O l R.panic t) : Spec.SshdPanics E sid W O t := by
  cases h with
  | noService => exact .noService
  | otherMessage h => exact .otherMessage h
  | serviceWrite w => exact .write w
  | serviceOverflow o => exact .overflow o
  | served g1 g2 g3 =>
    cases g3 with
    | fatal g => exact .fatal g
    | @tooLarge p user service algorithm key k1 k2 k3 =>
      obtain rfl := (C58_probe user service algorithm key).1.mp k2
      exact .tooLarge k1 k3
    | @probePanics p user service algorithm key _ k =>
      exact absurd k (C58_probe user service algorithm key).2
    | authPanics g k =>
      simp only [Sshd.handlers] at k
      rename_i user service arg
      have k' : Sshd.authenticate E user service arg = R.panic := by
        rcases hx : Sshd.authenticate E user service arg with n | e | _ <;> rw [hx] at k <;>
          simp only [R.map, reduceCtorEq] at k
      rcases (C58_panics ..).mp k' with ⟨pw, rfl⟩ | ⟨hu, key, signature, message, rfl, hv⟩
      · cases g with
        | password g => exact .password g
      · cases g with
        | publicKey g1 g2 => exact .name g1 hv hu
    | roundWrite w => exact .write w
    | acceptedWrite w => exact .write w
    | overflow o => exact .overflow o
    | roundOverflow o => exact .overflow o
    | acceptedOverflow o => exact .overflow o

/-- The part of C94 that holds: if the server stops, then `accept` has failed, or a client has made the
handshake panic, or it has made the authentication panic in one of these ways, or it has shown a valid
signature and made its session panic.

Missing: that clients that are not authenticated cannot do so, which is false (`C94_refuted`). -/
theorem C94_stopped_partial {entropy : Nat → Byte} {bound : Bool} {cfg : Config}
    (hm : Sshd.main G E number S entropy bound = ok cfg) (ops : List Op)
    (h : (run cfg ops).running = false) :
    .acceptPanics ∈ ops ∨ ∃ i s as, Spec.own i ops = some (s, as) ∧
      ((Host.handleNewClient cfg.K cfg.ident s).1 = R.panic ∨
       ∃ c s1, Host.handleNewClient cfg.K cfg.ident s = (ok c, s1) ∧
        ((∃ t, (Server.authenticateNewClient cfg.K cfg.H cfg.ident s).2.log = s.log ++ t ∧
          Spec.SshdPanics E c.sessionIdentifier (s.wcap ≠ none) (2 ^ 64 ≤ s.inp.length + 4) t) ∨
         ∃ user service key signature a s2 pre sched post,
          Spec.ValidSignature E key (Spec.signData c.sessionIdentifier user service (b! "ssh-ed25519")
            (Spec.tagged (b! "ssh-ed25519") key)) signature ∧ Spec.Utf8 user ∧
          Server.authenticateNewClient cfg.K cfg.H cfg.ident s = (ok a, s2) ∧ a.user = number user ∧
          as = pre ++ sched ++ post ∧
          (Client.steps cfg.K cfg.C a.user (Client.start a) sched s2).1 = R.panic)) := by
  have hid := main_fits hm
  rcases C51_stopped_by cfg hid ops h with h1 | ⟨i, s, as, h1, h2⟩
  · exact .inl h1
  refine .inr ⟨i, s, as, h1, ?_⟩
  rcases h2 with h2 | ⟨pre, sched, post, a, s2, h2, h3, h4⟩
  · rcases hx : Host.handleNewClient cfg.K cfg.ident s with ⟨r, s1⟩
    cases r with
    | ok c =>
      refine .inr ⟨c, s1, rfl, .inl ?_⟩
      obtain ⟨t, g1, g2⟩ := authenticate_session cfg.H hid hx
      rw [h2] at g2
      have hH : cfg.H = Sshd.handlers E number := by rw [main_ok hm]
      refine ⟨t, g1, sshd_panics (number := number) (l := s.log) ?_⟩
      rw [hH] at g2
      exact g2
    | err e =>
      rw [authenticateNewClient, M.bind_err (by rw [M.mapErr_run, hx]; rfl)] at h2
      cases h2
    | panic => exact .inl rfl
  · obtain ⟨c, s1, g1, _, _, user, service, key, signature, -, g2, g3, g4⟩ :=
      C92_signature_partial hm s s2 a h3
    exact .inr ⟨c, s1, g1, .inr ⟨user, service, key, signature, a, s2, pre, sched, post, g2, g3, h3, g4,
      h2, h4⟩⟩

/-! examples -/

-- the program starts
example : ∃ cfg, Sshd.main flatKeyGen someEd25519 List.length someSys (fun _ => 0) true = ok cfg :=
  ((C90_starts ..).1).mpr rfl

-- a client that gets in as root, with some key
example : ∃ a s', Server.authenticateNewClient .flat (Sshd.handlers someEd25519 List.length)
    (b! "SSH-2.0-nora_ssh example") (clientState [Spec.encode (.serviceRequest ⟨b! "ssh-userauth"⟩),
      sshdRequest] [9]) = (ok a, s') ∧ a.user = 4 ∧ s'.inp = [9] := by
  obtain ⟨c, s1, h1, h2, h3, h4⟩ := main_session
    [Spec.encode (.serviceRequest ⟨b! "ssh-userauth"⟩), sshdRequest] [9]
  have hs := conversation_stream [9] [Spec.encode (.serviceRequest ⟨b! "ssh-userauth"⟩), sshdRequest] 3
    (by decide +kernel)
  rw [← h2, ← h4] at hs
  have hm : Sshd.main flatKeyGen someEd25519 List.length someSys (fun _ => 0) true = ok
    ⟨.flat, Sshd.handlers someEd25519 List.length, Sshd.connHandlers someSys,
      b! "SSH-2.0-nora_ssh example"⟩ := rfl
  exact C92_gets_in hm _ s1 c _ _ [9] (b! "root") (b! "ssh-connection") (List.replicate 32 1)
    _ h1 rfl (by decide +kernel) (legal_encode (show Spec.Fits _ by decide))
    (legal_encode ⟨by decide, by decide, by decide, by decide, by decide +kernel⟩)
    (by rw [h3]; decide +kernel)
    (by rw [h3]; exact ⟨by decide +kernel, by decide +kernel, by decide +kernel⟩)
    (Utf8.valid_iff.mp (by decide +kernel)) hs

end Nora
