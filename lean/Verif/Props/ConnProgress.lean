import Verif.Lemmas.ConnExec
/-
C62: sessions make progress. Here "the session can go on" is shown for the steps of the server; that the
network and the processes do their part is a matter of the schedule.
-/
namespace Nora
open R

section
variable {K : Crypto} {H : ConnHandlers} {user : Nat} {a : Authenticated} {sched : List Client.Step}
  {s s' : IoSt} {st : Client.St} {t : List Event}

/-- C62: in every session without interruptions, the next packet of the client is received and handled,
unless it is one of those on which the server panics, a handler fails, or a packet counter is
exhausted. -/
theorem C62_packet (hrun : Client.steps K H user (Client.start a) sched s = (ok (.inl st), s'))
    (hl : s'.log = s.log ++ t) (hsm : Spec.Smooth sched) (hw : s.wcap = none) (hc : Spec.Fresh a t)
    {ps : List Bytes} {rest q : Bytes}
    (hs : Spec.Arrive K (Spec.keysOf a.receive) a.receive.counter.toNat ps s.inp rest)
    (hq : ps[(Spec.payloads t).length]? = some q) (hf : ¬ Spec.FatalPacket (Spec.view t) q)
    (hsp : ∀ ty, ∃ io, H.spawn (s.log ++ t ++ [.received q]) user ty = ok io)
    (hwr : ∀ n d, ∃ k, H.write (s.log ++ t ++ [.received q]) n d = ok k) :
    (∃ st2 s2 b, Client.steps K H user (Client.start a) (sched ++ [.message]) s = (ok (.inl st2), s2) ∧
      s2.log = s.log ++ (t ++ .received q :: b) ∧ Spec.Reaction H user s.log t q b) ∨
    (∃ d s2, Spec.Legal (.disconnect d) q ∧
      Client.steps K H user (Client.start a) (sched ++ [.message]) s = (ok (.inr ()), s2) ∧
      s2.log = s.log ++ (t ++ [.received q])) :=
  exec_message hrun hl hsm hw hc hs hq hf hsp hwr

/-- C62: in every session in which no reply was interrupted, whatever a process that was started does next
is passed on to the client: output on either stream, the end of these, and its exit (if it has an
output). For each of these there is an event of the schedule with which exactly this happens. -/
theorem C62_output (hrun : Client.steps K H user (Client.start a) sched s = (ok (.inl st), s'))
    (hl : s'.log = s.log ++ t) (hcut : ∀ n, ¬ Spec.Drops sched (.write n)) (hw : s.wcap = none)
    (hc : Spec.Fresh a t) {b : List Event}
    (hb : Spec.Block H user (fun _ => False) s.log t b) (hp : Spec.payloads b = []) :
    ∃ e st2 s2, Client.steps K H user (Client.start a) (sched ++ [.event .none e]) s =
        (ok (.inl st2), s2) ∧ s2.log = s.log ++ (t ++ b) :=
  exec_output hrun hl hcut hw hc hb hp

end

end Nora
