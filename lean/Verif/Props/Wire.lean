import Verif.Props.Connection
import Verif.Props.Command
import Verif.Props.Integrity
/-
C103: every byte that the server sends to a client is determined by its random numbers, by what the client
has sent for the handshake, and by the payloads that are sent after it. And a command, from the first byte of
the connection to the exit status.
-/
namespace Nora
open R Server

/-! ### the specification -/

/-- What the server sends in a handshake with the client that has asked `a`, and the random numbers that are
left: those for the padding of its three packets and for its secret key are gone. -/
def Spec.Spoke (K : Crypto) (ident : Bytes) (rng : Tape) (a : Spec.Asked) (sent : Bytes) (rng' : Tape) : Prop :=
  ∃ raw0 rng0 secret hash sig raw1 rng1 raw2, Spec.Padded rng Spec.serverKexInit raw0 rng0 ∧
    secret = rng0.bytes 32 ∧ Spec.HashOf K ident secret a hash ∧
    Spec.P256Signature (K.sign hash).1 (K.sign hash).2 sig ∧
    Spec.Padded (rng0.skip 32) (Spec.replyBytes (Spec.p256Key K.hostPoint) (K.dhPublic secret) sig) raw1 rng1 ∧
    Spec.Padded rng1 (Spec.encode .newKeys) raw2 rng' ∧
    sent = ident ++ Spec.crlf ++ raw0 ++ raw1 ++ raw2

/-- Everything that is sent to a client that has sent `inp`, if the payloads `ps` have been sent to it after the
handshake: `hello` for the handshake, and then `w`; with the key `k` and the random numbers that are left. -/
def Spec.OnWire (cfg : Config) (rng : Tape) (inp : Bytes) (ps : List Bytes) (hello w : Bytes) (k : Spec.Keys)
    (rng' : Tape) : Prop :=
  ∃ a rest sid k1 rng1, Spec.Shakes inp (.session a rest) ∧ Spec.Agreed cfg.K cfg.ident rng a sid k1 k ∧
    Spec.Spoke cfg.K cfg.ident rng a hello rng1 ∧ Spec.Written cfg.K k False False 3 rng1 ps w rng'

/-! ### it is determined -/

theorem Spec.Spoke.unique {K : Crypto} {ident : Bytes} {rng : Tape} {a : Spec.Asked} {x y : Bytes} {r r' : Tape}
    (h : Spec.Spoke K ident rng a x r) (h' : Spec.Spoke K ident rng a y r') : x = y ∧ r = r' := by
  obtain ⟨raw0, rng0, secret, hash, sig, raw1, rng1, raw2, h0, rfl, h2, ⟨b, c, hb, hc, rfl⟩, h4, h5, rfl⟩ := h
  obtain ⟨raw0', rng0', secret', hash', sig', raw1', rng1', raw2', h0', rfl, h2', ⟨b', c', hb', hc', rfl⟩, h4',
    h5', rfl⟩ := h'
  obtain ⟨rfl, rfl⟩ := h0.unique h0'
  obtain rfl := h2.unique h2'
  obtain rfl := mpintBody_unique hb hb'
  obtain rfl := mpintBody_unique hc hc'
  obtain ⟨rfl, rfl⟩ := h4.unique h4'
  obtain ⟨rfl, rfl⟩ := h5.unique h5'
  exact ⟨rfl, rfl⟩

theorem Spec.Written.unique {K : Crypto} {k : Spec.Keys} {n : Nat} {r r1 r2 : Tape} {ps : List Bytes} {x y : Bytes}
    (h : Spec.Written K k False False n r ps x r1) (h' : Spec.Written K k False False n r ps y r2) :
    x = y ∧ r1 = r2 := by
  induction h generalizing y r2 with
  | nil => cases h'; exact ⟨rfl, rfl⟩
  | @cons n r p j raw m ps w r' h1 h2 h3 h4 h5 h6 ih =>
    cases h' with
    | @cons _ _ _ j' raw' m' _ w' _ h1' h2' h3' h4' h5' h6' =>
      obtain rfl := leastPad_unique h1 h1'
      have e : raw = raw' := by rw [h2.bytes, h2'.bytes]
      subst e
      obtain ⟨rfl, rfl⟩ := ih h6'
      refine ⟨?_, rfl⟩
      rw [List.take_of_length_le (Nat.le_of_not_lt fun hm => (h5 hm).elim id And.left),
        List.take_of_length_le (Nat.le_of_not_lt fun hm => (h5' hm).elim id And.left)]

/-- C103: what is sent is determined by the configuration, the random numbers, what the client has sent, and the
payloads. -/
theorem C103_once (cfg : Config) (rng r r' : Tape) (inp : Bytes) (ps : List Bytes) (x x' y y' : Bytes)
    (k k' : Spec.Keys) (h : Spec.OnWire cfg rng inp ps x y k r) (h' : Spec.OnWire cfg rng inp ps x' y' k' r') :
    x = x' ∧ y = y' ∧ k = k' ∧ r = r' := by
  obtain ⟨a, rest, sid, k1, rng1, h1, h2, h3, h4⟩ := h
  obtain ⟨a', rest', sid', k1', rng1', h1', h2', h3', h4'⟩ := h'
  cases C99_one_outcome _ _ _ h1 h1'
  obtain ⟨-, -, rfl⟩ := h2.unique h2'
  obtain ⟨rfl, rfl⟩ := h3.unique h3'
  obtain ⟨rfl, rfl⟩ := h4.unique h4'
  exact ⟨rfl, rfl, rfl, rfl⟩

/-! ### it is what is sent -/

/-- the handshake, with what it sends and the random numbers it takes -/
theorem handshake_spoke {cfg : Config} {s s1 : IoSt} {c : HostClient} (hid : Spec.Fits cfg.ident)
    (hw : s.wcap = none) (h : Host.handleNewClient cfg.K cfg.ident s = (ok c, s1)) :
    ∃ a hello, Spec.Shakes s.inp (.session a s1.inp) ∧
      Spec.Agreed cfg.K cfg.ident s.rng a c.sessionIdentifier (Spec.keysOf c.receiveCipher)
        (Spec.keysOf c.sendCipher) ∧
      Spec.Spoke cfg.K cfg.ident s.rng a hello s1.rng ∧ s1.out = s.out ++ hello := by
  obtain ⟨a, ha, hg⟩ := handshake_shakes hid hw h
  have hl : (List.replicate (1 <<< 16) (0 : Byte)).length = 65536 := by
    rw [List.length_replicate]; rfl
  obtain ⟨k0, k1, k2, raw0, raw1, raw2, id, pay, cp, g1, g2, g3, g4, g5, g6, g9, g7, g8⟩ :=
    Host.handshake_exact cfg.K (ident := cfg.ident) (s := s) (pktBuf := List.replicate (1 <<< 16) 0) hid
      (by omega) (by omega) h
  have hk : kexPayload = Spec.serverKexInit := C30_kexInit
  rw [hk] at g1 g2
  obtain ⟨secret, kk, f1, f2, -⟩ := show Spec.Agreed _ _ _ _ _ _ _ from hg
  obtain rfl := f1.unique ⟨k0, g1, rfl⟩
  have hsid := congrArg HostClient.sessionIdentifier g9
  obtain ⟨sig, hs, hrep⟩ := reply_eq cfg.K (cfg.K.dhPublic ((s.rng.skip k0).bytes 32))
    (theHash cfg.K cfg.ident id pay ((s.rng.skip k0).bytes 32) cp)
  rw [hrep] at g3 g4
  refine ⟨a, _, ha, hg, ⟨raw0, s.rng.skip k0, _, _, sig, raw1, _, raw2, ⟨k0, g1, g2, rfl⟩, rfl, f2, ?_,
    ⟨k1, g3, g4, rfl⟩, ⟨k2, g5, g6, g8⟩, rfl⟩, ?_⟩
  · rw [hsid]
    exact hs
  · rw [g7]
    simp only [List.append_assoc]

/-- C103: In any run of the server, to a client whose handshake is done and that is still connected (none of its
steps was dropped while it wrote, and writes succeed) exactly the bytes have been sent that the specification
says, and the random numbers are used up as it says. -/
theorem C103_wire (cfg : Config) (hid : Spec.Fits cfg.ident) (ops : List Op) (i : Nat) (c : Conn) (s : IoSt)
    (as : List Client.Step) (t : List Event) (hc : (run cfg ops).conns[i]? = some c)
    (ho : Spec.own i ops = some (s, as)) (hw : s.wcap = none) (hcut : ¬ Spec.WriteCut as)
    (hn : c.phase ≠ .new) (hp : c.phase ≠ .ended) (ht : c.io.log = s.log ++ t) :
    ∃ hello w k, c.io.out = s.out ++ (hello ++ w) ∧
      Spec.OnWire cfg s.rng s.inp (Spec.sentPayloads t) hello w k c.io.rng := by
  obtain ⟨s', as', h1, h⟩ := whole_flow cfg hid ops hc
  rw [ho] at h1
  cases h1
  rcases h with ⟨h, -⟩ | ⟨h, -⟩ | ⟨cl, s1, t', w, u, v, r', g1, g2, g3, g4, g5, g6, g7⟩
  · exact absurd h hn
  · exact absurd h hp
  · rw [ht] at g2
    cases List.append_cancel_left g2
    obtain ⟨a, hello, f1, f2, f3, f4⟩ := handshake_spoke hid hw g1
    rw [← (g7 hp).2] at g5
    exact ⟨hello, w, _, by rw [g3, f4, List.append_assoc], a, _, _, _, _, f1, f2, f3, g5.mono hcut hp⟩

/-- C103: hence two connections of clients that have sent the same, and to which the same payloads have been
sent, are the same on the wire if the random numbers are the same, whatever else the two servers do; -/
theorem C103_same (cfg : Config) (hid : Spec.Fits cfg.ident) (ops ops' : List Op) (i i' : Nat) (c c' : Conn)
    (s s' : IoSt) (as as' : List Client.Step) (t t' : List Event)
    (hc : (run cfg ops).conns[i]? = some c) (hc' : (run cfg ops').conns[i']? = some c')
    (ho : Spec.own i ops = some (s, as)) (ho' : Spec.own i' ops' = some (s', as'))
    (hw : s.wcap = none) (hw' : s'.wcap = none) (hcut : ¬ Spec.WriteCut as) (hcut' : ¬ Spec.WriteCut as')
    (hn : c.phase ≠ .new) (hn' : c'.phase ≠ .new) (hp : c.phase ≠ .ended) (hp' : c'.phase ≠ .ended)
    (ht : c.io.log = s.log ++ t) (ht' : c'.io.log = s'.log ++ t') (hout : s.out = s'.out)
    (hrng : s.rng = s'.rng) (hinp : s.inp = s'.inp) (hps : Spec.sentPayloads t = Spec.sentPayloads t') :
    c.io.out = c'.io.out ∧ c.io.rng = c'.io.rng := by
  obtain ⟨x, y, k, h1, h2⟩ := C103_wire cfg hid ops i c s as t hc ho hw hcut hn hp ht
  obtain ⟨x', y', k', h1', h2'⟩ := C103_wire cfg hid ops' i' c' s' as' t' hc' ho' hw' hcut' hn' hp' ht'
  rw [hrng, hinp, hps] at h2
  obtain ⟨rfl, rfl, -, e⟩ := C103_once cfg _ _ _ _ _ _ _ _ _ _ _ h2 h2'
  exact ⟨by rw [h1, h1', hout], e⟩

/-- C103: and who has the key of this direction decrypts exactly the payloads. -/
theorem C103_decrypted (cfg : Config) (rng r : Tape) (inp : Bytes) (ps : List Bytes) (hello w : Bytes)
    (k : Spec.Keys) (h : Spec.OnWire cfg rng inp ps hello w k r) (hps : ps.length + 3 < 2 ^ 64)
    (peer : ChaCha) (buf : Bytes) (sp : IoSt) (hk : Spec.keysOf peer = k) (hn : peer.counter = 3)
    (hb : 35000 ≤ buf.length) (hi : sp.inp = w) : delivered cfg.K ps.length peer buf sp = ps := by
  obtain ⟨a, rest, sid, k1, rng1, -, -, -, h4⟩ := h
  obtain ⟨w', f1, f2, -⟩ := written_stream id h4
  rw [f2 id, List.append_nil] at f1
  refine stream_delivered (rest := []) ?_ hb ?_
  · rw [hk, hn, hi]; exact f1
  · rw [hn, show (3 : UInt64).toNat = 3 from rfl]
    omega

/-! ### a command -/

/-- C103: a command, from the first byte of the connection. If the bytes that a client sends get it in as `user`
and the next two packets are a CHANNEL_OPEN and a request to run something on the channel 0, and the handler
`spawn` succeeds and gives a standard output, then for any output in pieces of 1 to 256 bytes (on standard error
if there is one) and for any exit status there are steps of the client such that in every run of the server in
which it takes these steps (there is one), whatever the other clients do, all of this happens and nothing else, exactly the
bytes have been sent that the specification says, and whoever has the key decrypts the replies of the
authentication, the confirmation, the success if it was wanted, the output in order, EOF, CLOSE and the exit
status. -/
theorem C103_command (cfg : Config) (s : IoSt) (user : Nat) (t0 : List Event) (k : Spec.Keys) (n : Nat)
    (w rest : Bytes) (hid : Spec.Fits cfg.ident) (hw : s.wcap = none) (hlen : s.inp.length + 4 < 2 ^ 64)
    (h : Spec.Entered cfg s.rng s.inp s.log user t0 k n w)
    {p1 p2 : Bytes} {o : Chan.Open} {r : Chan.Request} {q : SessionRequest} {ty : SpawnType}
    {io : IoSet} {outs : List (Bool × Bytes)} {status : UInt32}
    (hs : Spec.Arrive cfg.K k n [p1, p2] w rest)
    (h1 : Spec.Legal (.channel (.open o)) p1) (h2 : Spec.Legal (.channel (.request r)) p2)
    (hr : r.recipientChannel = 0) (hq : Spec.Asks r q) (hty : Spec.runs q = some ty)
    (hspawn : cfg.C.spawn (s.log ++ t0 ++ [.received p1, .sent (Spec.encode (Spec.confirm 0 o)), .received p2])
      user ty = ok io)
    (hout : io.stdout = true) (herr : ∀ x ∈ outs, x.1 = true → io.stderr = true)
    (ho : ∀ x ∈ outs, x.2 ≠ [] ∧ x.2.length ≤ 256)
    (hc : Spec.Few (t0 ++ Spec.commandLog 0 0 p1 p2 o r ty io outs status)) :
    ∃ as st s', Spec.Smooth as ∧ s'.log = s.log ++ (t0 ++ Spec.commandLog 0 0 p1 p2 o r ty io outs status) ∧
      (∃ hello w' k', s'.out = s.out ++ (hello ++ w') ∧
        Spec.OnWire cfg s.rng s.inp
          (Spec.sentPayloads t0 ++ (Spec.commandReplies 0 o r outs status).map Spec.encode) hello w' k' s'.rng ∧
        ∀ (peer : ChaCha) (buf : Bytes) (sp : IoSt), Spec.keysOf peer = k' → peer.counter = 3 →
          35000 ≤ buf.length → sp.inp = w' →
          delivered cfg.K ((Spec.sentPayloads t0).length + (Spec.commandReplies 0 o r outs status).length) peer
            buf sp = Spec.sentPayloads t0 ++ (Spec.commandReplies 0 o r outs status).map Spec.encode) ∧
      (∃ ops, (run cfg ops).running = true ∧ Spec.own 0 ops = some (s, as)) ∧
      ∀ ops i, (run cfg ops).running = true → Spec.own i ops = some (s, as) →
        (run cfg ops).conns[i]? = some ⟨.session user st, s'⟩ := by
  obtain ⟨a, s2, e1, rfl, e3, e4, rfl, rfl, rfl, e8, e9, e10⟩ := h.run hid hw hlen
  have hlog : Spec.payloads (t0 ++ Spec.commandLog 0 0 p1 p2 o r ty io outs status) =
      Spec.payloads t0 ++ [p1, p2] := by rw [payloads_append, received_command]
  have hsent : Spec.sentPayloads (t0 ++ Spec.commandLog 0 0 p1 p2 o r ty io outs status) =
      Spec.sentPayloads t0 ++ (Spec.commandReplies 0 o r outs status).map Spec.encode := by
    rw [sentPayloads_append, sent_command]
  have hfew := hc
  unfold Spec.Few at hfew
  rw [hlog, hsent, List.length_append, List.length_append, List.length_map] at hfew
  have hf : Spec.Fresh a ([] ++ Spec.commandLog 0 0 p1 p2 o r ty io outs status) := by
    unfold Spec.Fresh
    rw [List.nil_append, received_command, sent_command, List.length_map, e8, e9]
    have : ([p1, p2] : List Bytes).length = 2 := rfl
    omega
  obtain ⟨more, st2, s3, k1, k2, k3, -⟩ := C96_command (K := cfg.K) (H := cfg.C) (user := a.user) (a := a)
    (sched := []) (s := s2) (t := []) (ps := [p1, p2]) (rest := rest) (st := Client.start a) (s' := s2) rfl
    (by rw [List.append_nil]) (fun _ _ h => by cases h) e4 hs (p1 := p1) (p2 := p2) (List.prefix_refl _) h1 h2
    (id := 0) ⟨rfl, fun j hj => absurd hj (Nat.not_lt_zero _)⟩ hr hq hty (by
      rw [e3, ← hspawn]
      simp) hout herr ho (status := status) hf
  rw [List.nil_append] at k1 k2 k3 hf
  have hps := received_command 0 0 p1 p2 o r ty io outs status
  have ht := ((C95_sessions e4 hs hf (by rw [hps]; exact Nat.le_refl _)).mp ⟨more, st2, s3, k1, k2, k3⟩).1
  rw [e3] at ht
  have hopen := Spec.Open.mk h (by rw [hps]; exact hs) ht
  obtain ⟨as, st, s', g1, g2, g3⟩ := (alone_open hid hw hlen hc).mpr hopen
  have hne : (Spec.alone cfg s as).phase ≠ .ended := by rw [g2]; simp
  obtain ⟨f1, f2⟩ := run_solo (cfg := cfg) s as hne
  refine ⟨as, st, s', g1, g3, ?_, ⟨_, by rw [f1], f2⟩, fun ops i hrun hown => by
    rw [C51_isolated_partial cfg ops hrun i, hown, Option.map_some, g2]⟩
  obtain ⟨hello, w', k', d1, d2⟩ := C103_wire cfg hid _ 0 ⟨.session a.user st, s'⟩ s as _ (by rw [f1, g2]; rfl) f2
    hw (fun ⟨n, e, he⟩ => absurd (g1 _ _ he) (by simp)) (by simp) (by simp) g3
  rw [hsent] at d2
  refine ⟨hello, w', k', d1, d2, fun peer buf sp hk hn hb hi => ?_⟩
  have := C103_decrypted cfg _ _ _ _ _ _ _ d2 (by rw [List.length_append, List.length_map]; omega) peer buf sp hk
    hn hb hi
  rwa [List.length_append, List.length_map] at this

/-! ### an example -/

/-- a client that authenticates with a password and runs the command "ls" -/
private def lsState : IoSt := clientState entryPayloads (conversation 5 [demoP0, demoP1] ++ [])

/-- it writes "x", "?" on standard error and "y", and its exit status is 2 -/
private def lsPieces : List (Bool × Bytes) := [(false, b! "x"), (true, b! "?"), (false, b! "y")]

/-- the premises of `C103_command` can be met: there is a run of the server in which the client gets these
messages -/
example : ∃ ops st s', (run wholeConfig ops).conns[0]? = some ⟨.session 1000 st, s'⟩ ∧ ∃ hello w' k',
    s'.out = hello ++ w' ∧ Spec.OnWire wholeConfig lsState.rng lsState.inp
      ([Spec.acceptReply, Spec.successReply] ++
        [Spec.confirm 0 demoOpen, Spec.success 5, Spec.dataMsg 5 (b! "x"), Spec.dataMsg 5 (b! "?"),
          Spec.dataMsg 5 (b! "y"), Spec.eofMsg 5, Spec.closeMsg 5, Spec.exitMsg 5 2].map Spec.encode)
      hello w' k' s'.rng := by
  obtain ⟨as, st, s', h1, -, ⟨hello, w', k', h2, h3, -⟩, ⟨ops, h5, h6⟩, h4⟩ := C103_command wholeConfig lsState 1000 entryLog
    flatKeys 5 _ [] (by decide) rfl (by decide +kernel) (entry_entered _) (p1 := demoP0) (p2 := demoP1)
    (o := demoOpen) (r := demoExec) (io := ⟨true, true, true⟩) (outs := lsPieces) (status := 2)
    (conversation_stream [] [demoP0, demoP1] 5 (by decide)) (legal_encode demoOpen_wf) (legal_encode demoExec_wf)
    rfl demoExec_asks rfl rfl rfl (fun _ _ _ => rfl) (by decide) (by unfold Spec.Few; decide +kernel)
  exact ⟨ops, st, s', h4 ops 0 h5 h6, hello, w', k', h2, h3⟩

end Nora
