import Verif.Model.Server
import Verif.Lemmas.Io
/-
For C101: what a computation does on a connection whose writes fail at some point, compared to what it does if
they never fail.
-/
namespace Nora
open R Server

/-- the connection fails after `n` more bytes -/
def limited (n : Nat) (s : IoSt) : IoSt := { s with wcap := some n }

/-- the result after a failed write: an error, or a panic -/
def failed {ε α : Type} : Option ε → R ε α
  | some e => err e
  | none => R.panic

/-- What a computation does on a connection that takes `n` bytes, compared to one that takes all: the same, if it
writes at most `n` bytes. Otherwise it writes the first `n` of them, does nothing that it would not have done, and
then fails. -/
def Truncated {ε α : Type} (b : Option ε) (x : M ε α) (s : IoSt) : Prop :=
  ∃ r s1 sent, x s = (r, s1) ∧ s1.wcap = none ∧ s1.out = s.out ++ sent ∧ s.log <+: s1.log ∧
    ∀ n, (sent.length ≤ n → x (limited n s) = (r, limited (n - sent.length) s1)) ∧
      (n < sent.length → ∃ s2, x (limited n s) = (failed b, s2) ∧
        s2.out = s.out ++ sent.take n ∧ s2.log <+: s1.log)

/-- for each connection -/
def Truncates {ε α : Type} (b : Option ε) (x : M ε α) : Prop :=
  ∀ s : IoSt, s.wcap = none → Truncated b x s

/-- a computation that writes nothing -/
def Mute {ε α : Type} (x : M ε α) : Prop :=
  ∀ s : IoSt, (x s).2.out = s.out ∧ (x s).2.wcap = s.wcap ∧ s.log <+: (x s).2.log ∧
    ∀ n, x (limited n s) = ((x s).1, limited n (x s).2)

namespace Mute
variable {ε ε' α β : Type}

theorem bind {x : M ε α} {f : α → M ε β} (hx : Mute x) (hf : ∀ a, Mute (f a)) : Mute (x >>= f) := by
  intro s
  obtain ⟨h1, h2, h3, h4⟩ := hx s
  cases h : x s with
  | mk r s1 =>
    rw [h] at h1 h2 h3
    simp only [h] at h4
    cases r with
    | ok a =>
      obtain ⟨g1, g2, g3, g4⟩ := hf a s1
      rw [M.bind_ok h]
      exact ⟨g1.trans h1, g2.trans h2, h3.trans g3, fun n => by rw [M.bind_ok (h4 n), g4]⟩
    | err e =>
      rw [M.bind_err h]
      exact ⟨h1, h2, h3, fun n => M.bind_err (h4 n)⟩
    | panic =>
      rw [M.bind_panic h]
      exact ⟨h1, h2, h3, fun n => M.bind_panic (h4 n)⟩

theorem mapErr {x : M ε α} (f : ε → ε') (hx : Mute x) : Mute (x.mapErr f) := by
  intro s
  obtain ⟨h1, h2, h3, h4⟩ := hx s
  exact ⟨h1, h2, h3, fun n => by simp only [M.mapErr_run, h4]⟩

theorem unwrap {x : M ε α} (hx : Mute x) : Mute (x.unwrap : M ε' α) := by
  intro s
  obtain ⟨h1, h2, h3, h4⟩ := hx s
  exact ⟨h1, h2, h3, fun n => by simp only [M.unwrap_run, h4]⟩

theorem pure (a : α) : Mute (Pure.pure a : M ε α) :=
  fun _ => ⟨rfl, rfl, List.prefix_refl _, fun _ => rfl⟩

theorem lift (x : R ε α) : Mute (M.lift x) :=
  fun _ => ⟨rfl, rfl, List.prefix_refl _, fun _ => rfl⟩

theorem fail (e : ε) : Mute (M.fail e : M ε α) :=
  fun _ => ⟨rfl, rfl, List.prefix_refl _, fun _ => rfl⟩

theorem panic : Mute (M.panic : M ε α) :=
  fun _ => ⟨rfl, rfl, List.prefix_refl _, fun _ => rfl⟩

theorem getLog : Mute (M.getLog : M ε _) :=
  fun _ => ⟨rfl, rfl, List.prefix_refl _, fun _ => rfl⟩

theorem logEvent (e : Event) : Mute (M.logEvent e : M ε Unit) :=
  fun _ => ⟨rfl, rfl, List.prefix_append _ _, fun _ => rfl⟩

theorem withRng (f : Tape → R ε (α × Tape)) : Mute (M.withRng f) := by
  intro s
  have h : ∀ n, f (limited n s).rng = f s.rng := fun _ => rfl
  unfold M.withRng
  simp only [h]
  cases f s.rng with
  | ok a => exact ⟨rfl, rfl, List.prefix_refl _, fun _ => rfl⟩
  | err e => exact ⟨rfl, rfl, List.prefix_refl _, fun _ => rfl⟩
  | panic => exact ⟨rfl, rfl, List.prefix_refl _, fun _ => rfl⟩

theorem readExact (n : Nat) : Mute (M.readExact n) := by
  intro s
  have h : ∀ n, (limited n s).inp = s.inp := fun _ => rfl
  unfold M.readExact
  simp only [h]
  split
  · exact ⟨rfl, rfl, List.prefix_refl _, fun _ => rfl⟩
  · exact ⟨rfl, rfl, List.prefix_refl _, fun _ => rfl⟩

theorem ident : Mute Ident.parse := by
  intro s
  have h : ∀ n, (limited n s).inp = s.inp := fun _ => rfl
  unfold Ident.parse
  simp only [h]
  cases Ident.parseStream s.inp with
  | ok a => exact ⟨rfl, rfl, List.prefix_refl _, fun _ => rfl⟩
  | err e => exact ⟨rfl, rfl, List.prefix_refl _, fun _ => rfl⟩
  | panic => exact ⟨rfl, rfl, List.prefix_refl _, fun _ => rfl⟩

end Mute

namespace Truncates
variable {ε ε' α β : Type} {b : Option ε}

theorem bind {x : M ε α} {f : α → M ε β} (hx : Truncates b x) (hf : ∀ a, Truncates b (f a)) :
    Truncates b (x >>= f) := by
  intro s hs
  obtain ⟨r, s1, sent, h1, h2, h3, h4, h5⟩ := hx s hs
  cases r with
  | ok a =>
    obtain ⟨r', s1', sent', g1, g2, g3, g4, g5⟩ := hf a s1 h2
    refine ⟨r', s1', sent ++ sent', by rw [M.bind_ok h1, g1], g2, by rw [g3, h3, List.append_assoc],
      h4.trans g4, fun n => ⟨?_, ?_⟩⟩
    · intro hn
      rw [List.length_append] at hn
      rw [M.bind_ok ((h5 n).1 (by omega)), (g5 _).1 (by omega), List.length_append, Nat.sub_sub]
    · intro hn
      rw [List.length_append] at hn
      by_cases hl : sent.length ≤ n
      · obtain ⟨s2, k1, k2, k3⟩ := (g5 (n - sent.length)).2 (by omega)
        refine ⟨s2, by rw [M.bind_ok ((h5 n).1 hl), k1], ?_, k3⟩
        rw [k2, h3, List.append_assoc, List.take_append, List.take_of_length_le hl]
      · obtain ⟨s2, k1, k2, k3⟩ := (h5 n).2 (by omega)
        refine ⟨s2, ?_, ?_, k3.trans g4⟩
        · cases b with
          | some e => exact M.bind_err k1
          | none => exact M.bind_panic k1
        · rw [k2, List.take_append_of_le_length (by omega)]
  | err e =>
    refine ⟨err e, s1, sent, M.bind_err h1, h2, h3, h4, fun n => ⟨fun hn => M.bind_err ((h5 n).1 hn), ?_⟩⟩
    intro hn
    obtain ⟨s2, k1, k2⟩ := (h5 n).2 hn
    refine ⟨s2, ?_, k2⟩
    cases b with
    | some e => exact M.bind_err k1
    | none => exact M.bind_panic k1
  | panic =>
    refine ⟨R.panic, s1, sent, M.bind_panic h1, h2, h3, h4, fun n => ⟨fun hn => M.bind_panic ((h5 n).1 hn), ?_⟩⟩
    intro hn
    obtain ⟨s2, k1, k2⟩ := (h5 n).2 hn
    refine ⟨s2, ?_, k2⟩
    cases b with
    | some e => exact M.bind_err k1
    | none => exact M.bind_panic k1

theorem quiet {x : M ε α} (h : Mute x) : Truncates b x := by
  intro s hs
  obtain ⟨h1, h2, h3, h4⟩ := h s
  exact ⟨(x s).1, (x s).2, [], rfl, h2.trans hs, by rw [h1, List.append_nil], h3,
    fun n => ⟨fun _ => by rw [h4]; rfl, fun hn => absurd hn (by simp)⟩⟩

theorem writeAll (d : Bytes) : Truncates (some ()) (M.writeAll d) := by
  intro s hs
  refine ⟨ok (), { s with out := s.out ++ d }, d, ?_, hs, rfl, List.prefix_refl _, fun n => ⟨fun hn => ?_, fun hn => ?_⟩⟩
  · rw [M.writeAll, hs]
  · show (if d.length ≤ n then _ else _) = _
    rw [if_pos hn]
    rfl
  · refine ⟨{ s with out := s.out ++ d.take n, wcap := some 0 }, ?_, rfl, List.prefix_refl _⟩
    show (if d.length ≤ n then _ else _) = _
    rw [if_neg (by omega)]
    rfl

theorem mapErr {x : M ε α} (f : ε → ε') (h : Truncates b x) : Truncates (b.map f) (x.mapErr f) := by
  intro s hs
  obtain ⟨r, s1, sent, h1, h2, h3, h4, h5⟩ := h s hs
  refine ⟨r.mapErr f, s1, sent, by rw [M.mapErr_run, h1], h2, h3, h4, fun n => ⟨fun hn => ?_, fun hn => ?_⟩⟩
  · rw [M.mapErr_run, (h5 n).1 hn]
  · obtain ⟨s2, k1, k2⟩ := (h5 n).2 hn
    refine ⟨s2, ?_, k2⟩
    rw [M.mapErr_run, k1]
    cases b <;> rfl

theorem unwrap {x : M ε α} (h : Truncates b x) : Truncates (none : Option ε') (x.unwrap) := by
  intro s hs
  obtain ⟨r, s1, sent, h1, h2, h3, h4, h5⟩ := h s hs
  refine ⟨r.unwrap, s1, sent, by rw [M.unwrap_run, h1], h2, h3, h4, fun n => ⟨fun hn => ?_, fun hn => ?_⟩⟩
  · rw [M.unwrap_run, (h5 n).1 hn]
  · obtain ⟨s2, k1, k2⟩ := (h5 n).2 hn
    refine ⟨s2, ?_, k2⟩
    rw [M.unwrap_run, k1]
    cases b <;> rfl

theorem mapErr' {b' : Option ε'} {x : M ε α} {f : ε → ε'} (h : Truncates b x) (hb : b.map f = b') :
    Truncates b' (x.mapErr f) := hb ▸ h.mapErr f

theorem write {e : ε} (d : Bytes) : Truncates (some e) ((M.writeAll d).mapErr (fun _ => e)) :=
  (writeAll d).mapErr' rfl

end Truncates

/-- one step of a proof that a computation writes nothing -/
macro "mute1" : tactic => `(tactic| first
  | with_reducible exact Mute.pure _
  | with_reducible exact Mute.lift _
  | with_reducible exact Mute.fail _
  | with_reducible exact Mute.panic
  | with_reducible exact Mute.getLog
  | with_reducible exact Mute.logEvent _
  | with_reducible exact Mute.withRng _
  | with_reducible exact Mute.readExact _
  | with_reducible exact Mute.ident
  | assumption
  | with_reducible refine Mute.bind ?_ fun _ => ?_
  | with_reducible refine Mute.mapErr _ ?_
  | with_reducible refine Mute.unwrap ?_
  | split
  | dsimp only)

macro "mute" : tactic => `(tactic| repeat mute1)

theorem PacketIo.parse_mute (buf : Bytes) (p : Bool) (bs : BlockSize) : Mute (PacketIo.parse buf p bs) := by
  unfold PacketIo.parse
  mute

theorem In.recv_mute (K : Crypto) (c : ChaCha) (buf : Bytes) : Mute (In.recv K c buf) := by
  unfold In.recv
  mute

/-- the functions that have been treated -/
syntax "trunc_known" : tactic

/-- one step of a proof that a computation truncates -/
macro "trunc1" : tactic => `(tactic| first
  | with_reducible trunc_known
  | assumption
  | with_reducible exact Truncates.write _
  | with_reducible exact Truncates.writeAll _
  | with_reducible exact Truncates.quiet (Mute.mapErr _ (PacketIo.parse_mute _ _ _))
  | with_reducible exact Truncates.quiet (Mute.mapErr _ (In.recv_mute _ _ _))
  | with_reducible exact Truncates.quiet (Mute.unwrap (In.recv_mute _ _ _))
  | with_reducible exact Truncates.quiet (Mute.mapErr _ Mute.ident)
  | with_reducible exact Truncates.quiet (Mute.pure _)
  | with_reducible exact Truncates.quiet (Mute.lift _)
  | with_reducible exact Truncates.quiet (Mute.fail _)
  | with_reducible exact Truncates.quiet Mute.panic
  | with_reducible exact Truncates.quiet Mute.getLog
  | with_reducible exact Truncates.quiet (Mute.logEvent _)
  | with_reducible exact Truncates.quiet (Mute.withRng _)
  | with_reducible refine Truncates.bind ?_ fun _ => ?_
  | split
  | dsimp only)

macro "trunc" : tactic => `(tactic| repeat trunc1)

theorem Ident.send_truncates (id : Bytes) : Truncates (some ()) (Ident.send id) := by
  unfold Ident.send
  trunc

theorem Host.hello_truncates (ident : Bytes) : Truncates (some .write) (Host.hello ident) := by
  unfold Host.hello
  have : Truncates (some .write) ((Ident.send ident).mapErr (fun _ => HandshakeError.write)) :=
    (Ident.send_truncates ident).mapErr' rfl
  generalize Packet.wrap _ _ _ _ = w
  trunc

theorem Host.receiveHello_truncates (ident : Bytes) (p : Packet) (buf : Bytes) :
    Truncates (some .write) (Host.receiveHello ident p buf) := by
  unfold Host.receiveHello
  trunc

theorem Host.receiveKey_truncates (buf : Bytes) : Truncates (some .write) (Host.receiveKey buf) := by
  unfold Host.receiveKey
  trunc

theorem Host.sendReply_truncates (K : Crypto) (h secret cp buf : Bytes) :
    Truncates (some .write) (Host.sendReply K h secret cp buf) := by
  unfold Host.sendReply
  trunc

theorem Host.receiveNewKeys_truncates (buf : Bytes) : Truncates (some .write) (Host.receiveNewKeys buf) := by
  unfold Host.receiveNewKeys
  trunc

theorem Host.handshake_truncates (K : Crypto) (ident buf : Bytes) :
    Truncates (some .write) (Host.handshake K ident buf) :=
  (hello_truncates ident).bind fun _ => (receiveHello_truncates _ _ _).bind fun _ =>
    (receiveKey_truncates _).bind fun _ => (sendReply_truncates _ _ _ _ _).bind fun _ =>
      (receiveNewKeys_truncates _).bind fun _ => .quiet (Mute.pure _)

theorem Host.handleNewClient_truncates (K : Crypto) (ident : Bytes) :
    Truncates (some .write) (Host.handleNewClient K ident) :=
  handshake_truncates K ident _

theorem Out.send_truncates (K : Crypto) (c : ChaCha) (buf : Bytes) (fill : Bytes → R OutError (Nat × Bytes)) :
    Truncates (some .write) (Out.send K c buf fill) := by
  unfold Out.send
  trunc

theorem Out.seal_mute (K : Crypto) (c : ChaCha) (buf : Bytes) (fill : Bytes → R OutError (Nat × Bytes)) :
    Mute (Out.seal K c buf fill) := by
  unfold Out.seal
  mute

theorem Server.send_truncates (K : Crypto) (c : ChaCha) (buf : Bytes) (m : Message) :
    Truncates none (Server.send K c buf m) := (Out.send_truncates K c buf _).unwrap

macro_rules | `(tactic| trunc_known) => `(tactic| exact Server.send_truncates _ _ _ _)

theorem Server.service_truncates (K : Crypto) (st : AuthSt) : Truncates none (Server.service K st) := by
  unfold Server.service
  trunc

theorem Server.publicKeyExists_mute (H : Handlers) (user service algorithm key : Bytes) :
    Mute (Server.publicKeyExists H user service algorithm key) := by
  unfold Server.publicKeyExists
  mute

theorem Server.authenticate_mute (H : Handlers) (user service : Bytes) (arg : AuthArg) :
    Mute (Server.authenticate H user service arg) := by
  unfold Server.authenticate
  mute

macro_rules | `(tactic| trunc_known) => `(tactic| exact .quiet (Server.publicKeyExists_mute _ _ _ _ _))
macro_rules | `(tactic| trunc_known) => `(tactic| exact .quiet (Server.authenticate_mute _ _ _ _))

theorem Server.probe_truncates (K : Crypto) (H : Handlers) (st : AuthSt) (ua : Auth.Request) (a b : Bytes) :
    Truncates none (Server.probe K H st ua a b) := by
  unfold Server.probe
  trunc

theorem Server.check_truncates (K : Crypto) (H : Handlers) (sid : Bytes) (st : AuthSt) (ua : Auth.Request) :
    Truncates none (Server.check K H sid st ua) := by
  unfold Server.check
  trunc

macro_rules | `(tactic| trunc_known) => `(tactic| exact Server.probe_truncates _ _ _ _ _ _)
macro_rules | `(tactic| trunc_known) => `(tactic| exact Server.check_truncates _ _ _ _ _)

theorem Server.attempt_truncates (K : Crypto) (H : Handlers) (sid : Bytes) (st : AuthSt) :
    Truncates none (Server.attempt K H sid st) := by
  unfold Server.attempt
  trunc

theorem Client.send_truncates (K : Crypto) (cut : Client.Cut) (st : Client.St) (m : Message) :
    Truncates (some .out) (Client.send K cut st m) := by
  unfold Client.send
  have h1 : ∀ c buf, Truncates (some .out) ((Out.seal K c buf (Message.write m)).mapErr (fun _ => Client.Stop.out)) :=
    fun c buf => .quiet (Mute.mapErr _ (Out.seal_mute K c buf _))
  have h2 : ∀ c buf, Truncates (some .out) ((Out.send K c buf (Message.write m)).mapErr (fun _ => Client.Stop.out)) :=
    fun c buf => (Out.send_truncates K c buf _).mapErr' rfl
  split
  · refine (h1 _ _).bind fun _ => ?_
    trunc
  · refine (h2 _ _).bind fun _ => ?_
    trunc

theorem Client.closeStdin_mute (ch : Client.Chan) : Mute (Client.closeStdin ch) := by
  unfold Client.closeStdin
  mute

macro_rules | `(tactic| trunc_known) => `(tactic| exact Client.send_truncates _ _ _ _)
macro_rules | `(tactic| trunc_known) => `(tactic| exact .quiet (Client.closeStdin_mute _))

theorem Client.opened_truncates (K : Crypto) (cut : Client.Cut) (st : Client.St) (o : Chan.Open) :
    Truncates (some .out) (Client.opened K cut st o) := by
  unfold Client.opened
  trunc

theorem Client.spawn_truncates (H : ConnHandlers) (user : Nat) (cut : Client.Cut) (st : Client.St) (id : UInt32)
    (ch : Client.Chan) (ty : SpawnType) : Truncates (some .out) (Client.spawn H user cut st id ch ty) := by
  unfold Client.spawn
  trunc

theorem Client.reply_truncates (K : Crypto) (cut : Client.Cut) (st : Client.St) (w : Bool) (m : Message) :
    Truncates (some .out) (Client.reply K cut st w m) := by
  unfold Client.reply
  trunc

macro_rules | `(tactic| trunc_known) => `(tactic| exact Client.spawn_truncates _ _ _ _ _ _ _)
macro_rules | `(tactic| trunc_known) => `(tactic| exact Client.reply_truncates _ _ _ _ _)
macro_rules | `(tactic| trunc_known) => `(tactic| exact Client.opened_truncates _ _ _ _)

theorem Client.run_truncates (K : Crypto) (H : ConnHandlers) (user : Nat) (cut : Client.Cut) (st : Client.St)
    (r : Chan.Request) (ch : Client.Chan) (ty : SpawnType) :
    Truncates (some .out) (Client.run K H user cut st r ch ty) := by
  unfold Client.run
  trunc

macro_rules | `(tactic| trunc_known) => `(tactic| exact Client.run_truncates _ _ _ _ _ _ _ _)

theorem Client.request_truncates (K : Crypto) (H : ConnHandlers) (user : Nat) (cut : Client.Cut) (st : Client.St)
    (r : Chan.Request) : Truncates (some .out) (Client.request K H user cut st r) := by
  unfold Client.request
  trunc

theorem Client.data_truncates (H : ConnHandlers) (cut : Client.Cut) (st : Client.St) (d : Chan.Data) :
    Truncates (some .out) (Client.data H cut st d) := by
  unfold Client.data
  trunc

theorem Client.eof_truncates (st : Client.St) (e : Chan.ChanOnly) :
    Truncates (some .out) (Client.eof st e) := by
  unfold Client.eof
  trunc

theorem Client.close_truncates (st : Client.St) (e : Chan.ChanOnly) :
    Truncates (some .out) (Client.close st e) := by
  unfold Client.close
  trunc

macro_rules | `(tactic| trunc_known) => `(tactic| exact Client.request_truncates _ _ _ _ _ _)
macro_rules | `(tactic| trunc_known) => `(tactic| exact Client.data_truncates _ _ _ _)
macro_rules | `(tactic| trunc_known) => `(tactic| exact Client.eof_truncates _ _)
macro_rules | `(tactic| trunc_known) => `(tactic| exact Client.close_truncates _ _)

theorem Client.handle_truncates (K : Crypto) (H : ConnHandlers) (user : Nat) (cut : Client.Cut) (st : Client.St)
    (m : Message) : Truncates (some .out) (Client.handle K H user cut st m) := by
  unfold Client.handle
  trunc

theorem Client.readCut_mute (K : Crypto) (n : Nat) (st : Client.St) : Mute (Client.readCut K n st) := by
  intro s
  have h : ∀ n, (limited n s).inp = s.inp := fun _ => rfl
  unfold Client.readCut
  simp only [h]
  repeat' split
  all_goals exact ⟨rfl, rfl, List.prefix_refl _, fun _ => rfl⟩

macro_rules | `(tactic| trunc_known) => `(tactic| exact Client.handle_truncates _ _ _ _ _ _)
macro_rules | `(tactic| trunc_known) => `(tactic| exact .quiet (Client.readCut_mute _ _ _))

theorem Client.message_truncates (K : Crypto) (H : ConnHandlers) (user : Nat) (cut : Client.Cut) (st : Client.St) :
    Truncates (some .out) (Client.message K H user cut st) := by
  unfold Client.message
  trunc

theorem Client.event_truncates (K : Crypto) (st : Client.St) (e : Client.Ev) :
    Truncates (some .out) (Client.event K st e) := by
  unfold Client.event
  split
  · split
    · exact .quiet (Mute.pure _)
    · split
      · exact .quiet Mute.panic
      · dsimp only
        generalize List.take 256 _ = d
        refine .bind (.quiet (Mute.logEvent _)) fun _ => ?_
        split
        · exact Client.send_truncates _ _ _ _
        · exact .bind (Client.send_truncates _ _ _ _) fun _ => Client.send_truncates _ _ _ _
  · split
    · exact .quiet (Mute.pure _)
    · split
      · exact .quiet Mute.panic
      · dsimp only
        generalize List.take 256 _ = d
        refine .bind (.quiet (Mute.logEvent _)) fun _ => ?_
        split
        · exact Client.send_truncates _ _ _ _
        · exact .quiet (Mute.pure _)
  · split
    · exact .quiet (Mute.pure _)
    · split
      · exact .quiet Mute.panic
      · generalize Client.exitStatus _ _ = x
        exact .bind (.quiet (Mute.logEvent _)) fun _ => .bind (.quiet (Mute.lift _)) fun _ =>
          Client.send_truncates _ _ _ _

theorem Client.dropReceive_truncates {x : M Client.Stop (Client.St ⊕ Unit)} (h : Truncates (some .out) x) :
    Truncates (some .out) (Client.dropReceive x) := by
  intro s hs
  obtain ⟨r, s1, sent, h1, h2, h3, h4, h5⟩ := h s hs
  have hd : ∀ {s r s1}, x s = (r, s1) → Client.dropReceive x s =
      ((match r with | err (.dropped st) => ok (.inl st) | r => r), s1) := by
    intro s r s1 h
    unfold Client.dropReceive
    rw [h]
    split
    · rename_i he
      cases he
      rfl
    · rename_i he
      split
      · exact absurd rfl (he _ _)
      · rfl
  refine ⟨_, s1, sent, hd h1, h2, h3, h4, fun n => ⟨fun hn => hd ((h5 n).1 hn), fun hn => ?_⟩⟩
  obtain ⟨s2, k1, k2⟩ := (h5 n).2 hn
  exact ⟨s2, hd k1, k2⟩

macro_rules | `(tactic| trunc_known) => `(tactic| exact Client.message_truncates _ _ _ _ _)
macro_rules | `(tactic| trunc_known) => `(tactic| exact Client.dropReceive_truncates (Client.message_truncates _ _ _ _ _))
macro_rules | `(tactic| trunc_known) => `(tactic| exact Client.event_truncates _ _ _)

theorem Client.step_truncates (K : Crypto) (H : ConnHandlers) (user : Nat) (st : Client.St) (a : Client.Step) :
    Truncates (some .out) (Client.step K H user st a) := by
  unfold Client.step
  trunc

end Nora
