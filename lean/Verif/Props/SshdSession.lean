import Verif.Props.SshdStop
/-
C105: what a client that has got in can do to the example server (nora_sshd): which programs are run for it, and
how it stops the server, exactly.
-/
namespace Nora
open R Server

/-! ### specification -/

/-- The program and the arguments for a request: the words of the command, or the shell of the environment.
`none`: there is no program. -/
inductive Spec.SshdProgram (shell : Option Bytes) : SessionRequest → Option (List Bytes) → Prop
  | shell {x} : shell = some x → SshdProgram shell .shell (some [x])
  | noShell : shell = none → SshdProgram shell .shell none
  | exec {command argv} : Words command argv → argv ≠ [] → SshdProgram shell (.exec command) (some argv)
  | noWords {command} : Words command [] → SshdProgram shell (.exec command) none

/-- The client stops the server: `t` are the events of the session before, `l0` those before the session. -/
inductive Spec.SshdStop (S : Sshd.Sys) (l0 t : List Event) : List Event → Prop
  /-- with a packet that is not parsed or supported, or for which there is no channel or process -/
  | fatal {p} : FatalPacket (view t) p → SshdStop S l0 t [.received p]
  /-- with a command without words, or if it asks for a shell and there is none -/
  | noProgram {p r q ty peer} : Legal (.channel (.request r)) p →
    (view t).peers r.recipientChannel = some peer → Asks r q → runs q = some ty →
    SshdProgram S.shell q none → SshdStop S l0 t [.received p, .proc (.spawn ty (view t).procs)]
  /-- with a program that cannot be started -/
  | notStarted {p r q ty peer argv} : Legal (.channel (.request r)) p →
    (view t).peers r.recipientChannel = some peer → Asks r q → runs q = some ty →
    SshdProgram S.shell q (some argv) → S.start (l0 ++ t ++ [.received p]) argv = false →
    SshdStop S l0 t [.received p, .proc (.spawn ty (view t).procs)]
  /-- with data for a process that does not take any -/
  | pipe {p d n} : Legal (.channel (.data d)) p → (view t).stdins d.recipientChannel = some n →
    (∀ k, S.write (l0 ++ t ++ [.received p]) n d.data ≠ ok k) → SshdStop S l0 t [.received p]
  /-- the output of a process cannot be read, or it cannot be waited for -/
  | output {n peer} : (view t).homes n = some peer → Reading t n ∨ ReadingErr t n ∨ Watched t n →
    SshdStop S l0 t []

/-! ### proofs -/

section
variable {S : Sshd.Sys} {l0 t b : List Event} {user : Nat}

/-- C105: each request to run something has one program or none -/
theorem C105_program (shell : Option Bytes) (q : SessionRequest) (ty : SpawnType) (h : Spec.runs q = some ty) :
    ∃ x, ∀ y, Spec.SshdProgram shell q y ↔ y = x := by
  cases q with
  | shell =>
    cases shell with
    | none =>
      refine ⟨none, fun y => ⟨fun h => ?_, ?_⟩⟩
      · cases h with
        | shell h => cases h
        | noShell => rfl
      · rintro rfl; exact .noShell rfl
    | some x =>
      refine ⟨some [x], fun y => ⟨fun h => ?_, ?_⟩⟩
      · cases h with
        | shell h => cases h; rfl
        | noShell h => cases h
      · rintro rfl; exact .shell rfl
  | exec command =>
    obtain ⟨ws, h1, h2⟩ := C58_words_unique command
    by_cases hw : ws = []
    · subst hw
      refine ⟨none, fun y => ⟨fun h => ?_, ?_⟩⟩
      · cases h with
        | exec h h' => exact absurd (h2 _ h) h'
        | noWords => rfl
      · rintro rfl; exact .noWords h1
    · refine ⟨some ws, fun y => ⟨fun h => ?_, ?_⟩⟩
      · cases h with
        | exec h h' => rw [h2 _ h]
        | noWords h => exact absurd (h2 _ h).symm hw
      · rintro rfl; exact .exec h1 hw
  | _ => cases h

theorem commandLine_ok {shell : Option Bytes} {q : SessionRequest} {ty : SpawnType} (h : Spec.runs q = some ty)
    (argv : List Bytes) : Sshd.commandLine shell ty = ok argv ↔ Spec.SshdProgram shell q (some argv) := by
  cases q with
  | shell =>
    cases h
    rw [C58_shell]
    constructor
    · rintro ⟨p, h1, rfl⟩; exact .shell h1
    · intro h
      cases h with
      | shell h => exact ⟨_, h, rfl⟩
  | exec command =>
    cases h
    rw [(C58_words shell command).1]
    constructor
    · rintro ⟨h1, h2⟩; exact .exec h1 h2
    · intro h
      cases h with
      | exec h1 h2 => exact ⟨h1, h2⟩
  | _ => cases h

/-- C105: a process is started for a request if and only if there is a program and it can be started; all its
streams are connected then. If not, the handler panics. -/
theorem C105_spawn (S : Sshd.Sys) (l : List Event) (user : Nat) (q : SessionRequest) (ty : SpawnType)
    (h : Spec.runs q = some ty) :
    (∀ io, (Sshd.connHandlers S).spawn l user ty = ok io ↔ io = ⟨true, true, true⟩ ∧
      ∃ argv, Spec.SshdProgram S.shell q (some argv) ∧ S.start l argv = true) ∧
    ((Sshd.connHandlers S).spawn l user ty = R.panic ↔ Spec.SshdProgram S.shell q none ∨
      ∃ argv, Spec.SshdProgram S.shell q (some argv) ∧ S.start l argv = false) := by
  show (∀ io, Sshd.spawn S l ty = ok io ↔ _) ∧ (Sshd.spawn S l ty = R.panic ↔ _)
  obtain ⟨x, hx⟩ := C105_program S.shell q ty h
  unfold Sshd.spawn
  rcases hc : Sshd.commandLine S.shell ty with argv | e | _
  · obtain rfl := (hx _).mp ((commandLine_ok h argv).mp hc)
    have one : ∀ argv', Spec.SshdProgram S.shell q (some argv') ↔ argv' = argv := fun a => by
      rw [hx]; exact ⟨fun h => by cases h; rfl, fun h => by rw [h]⟩
    have non : ¬ Spec.SshdProgram S.shell q none := fun h => by cases (hx _).mp h
    cases hs : S.start l argv with
    | true =>
      constructor
      · intro io
        constructor
        · intro h
          rw [show (do let argv ← (ok argv : R Unit (List Bytes)); if S.start l argv then
            (ok { stdin := true, stdout := true, stderr := true } : R Unit IoSet) else R.panic) =
            (if S.start l argv then ok { stdin := true, stdout := true, stderr := true } else R.panic) from rfl,
            hs] at h
          cases h
          exact ⟨rfl, argv, (one _).mpr rfl, hs⟩
        · rintro ⟨rfl, -⟩
          show (if S.start l argv then _ else _) = _
          rw [hs]; rfl
      · constructor
        · intro h
          rw [show (do let argv ← (ok argv : R Unit (List Bytes)); if S.start l argv then
            (ok { stdin := true, stdout := true, stderr := true } : R Unit IoSet) else R.panic) =
            (if S.start l argv then ok { stdin := true, stdout := true, stderr := true } else R.panic) from rfl,
            hs] at h
          cases h
        · rintro (h | ⟨argv', h1, h2⟩)
          · exact absurd h non
          · rw [(one _).mp h1, hs] at h2; cases h2
    | false =>
      constructor
      · intro io
        constructor
        · intro h
          rw [show (do let argv ← (ok argv : R Unit (List Bytes)); if S.start l argv then
            (ok { stdin := true, stdout := true, stderr := true } : R Unit IoSet) else R.panic) =
            (if S.start l argv then ok { stdin := true, stdout := true, stderr := true } else R.panic) from rfl,
            hs] at h
          cases h
        · rintro ⟨-, argv', h1, h2⟩
          rw [(one _).mp h1, hs] at h2; cases h2
      · constructor
        · intro _
          exact .inr ⟨argv, (one _).mpr rfl, hs⟩
        · intro _
          show (if S.start l argv then _ else _) = _
          rw [hs]; rfl
  · cases q with
    | shell => cases h; rcases hsh : S.shell with _ | _ <;> rw [hsh] at hc <;> cases hc
    | exec command =>
      cases h
      rw [Sshd.commandLine] at hc
      split at hc <;> cases hc
    | _ => cases h
  · have non : ∀ argv, ¬ Spec.SshdProgram S.shell q (some argv) := fun argv h' => by
      rw [(commandLine_ok h argv).mpr h'] at hc; cases hc
    have none' : Spec.SshdProgram S.shell q none := by
      rw [hx]
      cases x with
      | none => rfl
      | some argv => exact absurd ((hx _).mpr rfl) (non argv)
    constructor
    · intro io
      constructor
      · intro h; cases h
      · rintro ⟨-, argv, h, -⟩; exact absurd h (non argv)
    · exact ⟨fun _ => .inl none', fun _ => rfl⟩

/-- the sessions of the example server that panic -/
theorem ending_stop {l0 t b : List Event} {L : Prop} {A : Client.Cut → Prop} :
    Spec.Ending (Sshd.connHandlers S) user A False False L True l0 t R.panic b ↔ Spec.SshdStop S l0 t b := by
  constructor
  · intro h
    cases h with
    | fatal h => exact .fatal h
    | @spawnFails p r q ty peer h1 h2 h3 h4 h5 =>
      obtain ⟨x, hx⟩ := C105_program S.shell q ty h4
      cases x with
      | none => exact .noProgram h1 h2 h3 h4 ((hx _).mpr rfl)
      | some argv =>
        refine .notStarted h1 h2 h3 h4 ((hx _).mpr rfl) ?_
        cases hs : S.start (l0 ++ t ++ [.received p]) argv with
        | false => rfl
        | true => exact absurd (((C105_spawn S _ user q ty h4).1 _).mpr ⟨rfl, argv, (hx _).mpr rfl, hs⟩) (h5 _)
    | writeFails h1 h2 h3 => exact .pipe h1 h2 h3
    | readFails _ h1 h2 => exact .output h1 h2
    | overflow h => exact h.elim
    | sendOverflow h => exact h.elim
  · intro h
    cases h with
    | fatal h => exact .fatal h
    | noProgram h1 h2 h3 h4 h5 =>
      refine .spawnFails h1 h2 h3 h4 fun io h => ?_
      rw [(C105_spawn S _ user _ _ h4).2.mpr (.inl h5)] at h
      cases h
    | notStarted h1 h2 h3 h4 h5 h6 =>
      refine .spawnFails h1 h2 h3 h4 fun io h => ?_
      rw [(C105_spawn S _ user _ _ h4).2.mpr (.inr ⟨_, h5, h6⟩)] at h
      cases h
    | pipe h1 h2 h3 => exact .writeFails h1 h2 h3
    | output h1 h2 => exact .readFails trivial h1 h2

end

/-- C105: how a client that gets in stops the example server, exactly. It gets in with the events `t0`, and `w`
is left of its stream. Then there is a run of the server in which a step of it stops the server after the events
`t0 ++ t`, if and only if its packets lead to a session with these events, the last of which are as specified. -/
theorem C105_stops {G : KeyGen} {E : Ed25519} {number : Bytes → Nat} {S : Sshd.Sys} {entropy : Nat → Byte}
    {bound : Bool} {cfg : Config} (hm : Sshd.main G E number S entropy bound = ok cfg) (s : IoSt)
    (hw : s.wcap = none) (hlen : s.inp.length + 4 < 2 ^ 64) {user n : Nat} {t0 : List Event} {k : Spec.Keys}
    {w : Bytes} (h : Spec.Entered cfg s.rng s.inp s.log user t0 k n w) (t : List Event)
    (hc : Spec.Few (t0 ++ t)) :
    (∃ ops i as b c io, (run cfg ops).running = true ∧ Spec.own i ops = some (s, as) ∧
      Spec.Smooth (as ++ [b]) ∧ (run cfg ops).conns[i]? = some c ∧ c.phase ≠ .ended ∧
      (run cfg (ops ++ [.poll i b])).conns[i]? = some ⟨.ended, io⟩ ∧
      (run cfg (ops ++ [.poll i b])).running = false ∧ io.log = s.log ++ (t0 ++ t)) ↔
    ∃ t1 b rest, t = t1 ++ b ∧ Spec.Arrive cfg.K k n (Spec.payloads t) w rest ∧
      Spec.Trace cfg.C user (fun _ => False) (s.log ++ t0) t1 ∧ Spec.SshdStop S (s.log ++ t0) t1 b := by
  have hid := main_fits hm
  have hC : cfg.C = Sshd.connHandlers S := by rw [main_ok hm]
  rw [show (false : Bool) = !true from rfl, C100_closed cfg s true (t0 ++ t) hid hw hlen hc]
  constructor
  · intro hx
    obtain ⟨a, s2, k1, -⟩ := h.run hid hw hlen
    generalize hl : t0 ++ t = tt at hx
    generalize hstop : true = stops at hx
    cases hx with
    | failed g =>
      cases h with
      | mk h1 => cases C99_one_outcome _ _ _ g h1
    | panicked g =>
      cases h with
      | mk h1 => cases C99_one_outcome _ _ _ g h1
    | refused f1 f2 f3 f4 f5 =>
      obtain ⟨c, s1, e1, rfl, rfl, -, rfl⟩ := shakes_handshake hid hw f1 f2
      obtain ⟨e2, -⟩ := (C97_exact cfg.K cfg.H cfg.ident s s1 c hid e1 hw hlen _ _).mpr ⟨f4, f5⟩
      rw [k1] at e2
      exact absurd e2.symm (f3 _)
    | @left _ _ t1 b k' n' w' ps e rest rest' r f1 f2 f3 f4 f5 f6 f7 =>
      obtain ⟨rfl, rfl, rfl, rfl, rfl⟩ := C100_entered cfg s _ _ _ _ _ _ _ _ _ _ hid hw hlen h f1
      obtain rfl := List.append_cancel_left hl
      obtain ⟨more, rfl⟩ := f5
      obtain ⟨m, f8, -⟩ := f2.append
      have hr : r = R.panic := by
        cases r with
        | ok => cases hstop
        | err => cases hstop
        | panic => rfl
      subst hr
      refine ⟨t1, b, m, rfl, f8, f4, ?_⟩
      rw [hC] at f7
      exact ending_stop.mp f7
  · rintro ⟨t1, b, rest, rfl, f1, f2, f3⟩
    obtain ⟨a, s2, k1, k2, k3, k4, k5, k6, k7, k8, k9, k10⟩ := h.run hid hw hlen
    have hl := f1.left_le
    obtain ⟨ps, rest', e, rest'', r1, r2⟩ := C95_streams cfg.K k (n + (Spec.payloads (t1 ++ b)).length) rest
      (by omega)
    refine .left (r := R.panic) h (f1.concat r1) (e := e) (rest' := rest'') ?_ f2 ⟨ps, rfl⟩ (by simp) ?_
    · rw [List.length_append, ← Nat.add_assoc]
      exact r2
    · rw [hC]
      exact ending_stop.mpr f3

/-! ### examples -/

/-- the events of an authentication with a signature -/
def rootLog : List Event :=
  [.received (Spec.encode (.serviceRequest ⟨b! "ssh-userauth"⟩)), .sent Spec.acceptReply, .received sshdRequest,
   .auth (b! "root") (b! "ssh-connection") (.publicKey (b! "ssh-ed25519") (List.replicate 32 1)
     ((List.replicate 32 1 ++ Spec.signData (List.replicate 32 7) (b! "root") (b! "ssh-connection")
       (b! "ssh-ed25519") (Spec.tagged (b! "ssh-ed25519") (List.replicate 32 1))).take 64)
     (Spec.signData (List.replicate 32 7) (b! "root") (b! "ssh-connection") (b! "ssh-ed25519")
       (Spec.tagged (b! "ssh-ed25519") (List.replicate 32 1)))) (some 4),
   .sent Spec.successReply]

/-- a client that runs a command without words -/
def blankExec : Chan.Request where
  recipientChannel := 0
  ty := b! "exec"
  wantReply := true
  data := Spec.str (b! " \t ")

def blankPayloads : List Bytes :=
  [Spec.encode (.serviceRequest ⟨b! "ssh-userauth"⟩), sshdRequest, demoP0,
   Spec.encode (.channel (.request blankExec))]

theorem blank_arrive (rest : Bytes) :
    ∃ m, Spec.Arrive .flat flatKeys 3 [Spec.encode (.serviceRequest ⟨b! "ssh-userauth"⟩), sshdRequest]
      (conversation 3 blankPayloads ++ rest) m ∧
      Spec.Arrive .flat flatKeys 5 [demoP0, Spec.encode (.channel (.request blankExec))] m rest := by
  have hs := conversation_stream rest blankPayloads 3 (by decide +kernel)
  exact Spec.Arrive.append (a := [_, _]) (b := [_, _]) hs

theorem blank_entered (rest : Bytes) :
    ∃ m, Spec.Entered sshdConfig (clientState blankPayloads rest).rng (clientState blankPayloads rest).inp
      [] 4 rootLog flatKeys 5 m ∧
      Spec.Arrive .flat flatKeys 5 [demoP0, Spec.encode (.channel (.request blankExec))] m rest := by
  obtain ⟨c, s1, h1, h2, h3, h4⟩ := main_session blankPayloads rest
  obtain ⟨a, g1, g2⟩ := handshake_shakes (cfg := sshdConfig) (by decide) rfl h1
  obtain ⟨m, f1, f2⟩ := blank_arrive rest
  rw [← h4] at f1
  rw [h2, h3] at g2
  refine ⟨m, .mk (t := rootLog) g1 g2 ?_ f1, f2⟩
  refine .served (t := []) (legal_encode (show Spec.Fits (b! "ssh-userauth") by decide)) .nil
    (.accepted (.mk (.publicKey (legal_encode ⟨by decide, by decide, by decide, by decide, by decide +kernel⟩)
      (by decide +kernel)) ?_))
  simp only [sshdConfig, Sshd.handlers]
  rw [C92_anyone _ _ _ _ _ _ (Utf8.valid_iff.mp (by decide +kernel))
    ⟨by decide +kernel, by decide +kernel, by decide +kernel⟩]
  rfl

/-- it stops the server -/
example : ∃ ops i as b c io, (run sshdConfig ops).running = true ∧
    Spec.own i ops = some (clientState blankPayloads [], as) ∧ Spec.Smooth (as ++ [b]) ∧
    (run sshdConfig ops).conns[i]? = some c ∧ c.phase ≠ .ended ∧
    (run sshdConfig (ops ++ [.poll i b])).conns[i]? = some ⟨.ended, io⟩ ∧
    (run sshdConfig (ops ++ [.poll i b])).running = false ∧
    io.log = [] ++ (rootLog ++ (demoLog0 ++ [.received (Spec.encode (.channel (.request blankExec))),
      .proc (.spawn (.exec (b! " \t ")) 0)])) := by
  obtain ⟨m, h1, h2⟩ := blank_entered []
  refine (C105_stops sshdConfig_main (clientState blankPayloads []) rfl (by decide +kernel) h1 _
    (by unfold Spec.Few; decide +kernel)).mpr ⟨demoLog0, _, [], rfl, h2, ?_, ?_⟩
  · exact .snoc (t := []) .nil (.packet (.opened (id := 0) (legal_encode demoOpen_wf)
      ⟨rfl, fun j hj => absurd hj (Nat.not_lt_zero _)⟩))
  · have h := Spec.SshdStop.noProgram (S := someSys) (l0 := (clientState blankPayloads []).log ++ rootLog)
      (t := demoLog0) (r := blankExec) (q := .exec (b! " \t ")) (ty := .exec (b! " \t ")) (peer := 5)
      (legal_encode (show Spec.Fits _ by decide)) (by rw [demo_view0]; rfl) ⟨1, by decide, .exec (by decide)⟩ rfl
      (.noWords (.nil fun b hb => (isWhite_iff b).mp (by revert b; decide)))
    rw [demo_view0] at h
    exact h

end Nora
