import Verif.Model.Base
/-
Model of nora_ssh/src/sync.rs: the mutex around the writing half of a connection.

The value behind the lock is left out. A `Waker` is known by a number: two wakers with the same number
wake the same task.
-/
namespace Nora

/-- `core::task::Waker` -/
abbrev Waker := Nat

/-- `LocalMutex`, sync.rs:9-12: the borrow flag of `inner: RefCell<T>`, and `queue` -/
structure LocalMutex where
  borrowed : Bool
  queue : List Waker
  deriving DecidableEq, Repr

/-- `LocalMutexGuardFuture`, sync.rs:37-40 -/
structure GuardFuture where
  registered : Bool
  deriving DecidableEq, Repr

namespace LocalMutex

/-- `new`, sync.rs:15-17 -/
def new : LocalMutex := { borrowed := false, queue := [] }

/-- `lock`, sync.rs:19-21 -/
def lock : GuardFuture := { registered := false }

/-- `push_waker`, sync.rs:23-27 -/
def pushWaker (m : LocalMutex) (w : Waker) : LocalMutex := { m with queue := m.queue ++ [w] }

/-- `pop_waker`, sync.rs:29-34: `Vec::pop` takes the last one -/
def popWaker (m : LocalMutex) : Option Waker × LocalMutex :=
  (m.queue.getLast?, { m with queue := m.queue.dropLast })

/-- `LocalMutexGuardFuture::poll`, sync.rs:45-56, with the waker of the context: whether it is
`Poll::Ready` (there is a new guard), the mutex and the future afterwards. `try_borrow_mut` fails if and
only if the cell is borrowed. -/
def poll (m : LocalMutex) (f : GuardFuture) (w : Waker) : Bool × LocalMutex × GuardFuture :=
  if m.borrowed then
    if f.registered then (false, m, f)
    else (false, m.pushWaker w, { f with registered := true })
  else (true, { m with borrowed := true }, f)

/-- Dropping a `LocalMutexGuard`: `drop`, sync.rs:79-81, and then the field `lock` is dropped, which ends
the borrow. The waker that is woken, if any. -/
def dropGuard (m : LocalMutex) : Option Waker × LocalMutex :=
  let (w, m) := m.popWaker
  (w, { m with borrowed := false })

end LocalMutex

/-! ### users of the mutex

Any number of futures made by `lock`, polled in any order, with any wakers, dropped at any time. As with
`.await`, a future is not polled again after it was ready. -/
namespace Sync

/-- what users do -/
inductive Op where
  | lock
  /-- poll the `i`-th future with the waker `w` -/
  | poll (i : Nat) (w : Waker)
  /-- drop the `i`-th future, which has not been ready -/
  | cancel (i : Nat)
  /-- drop the guard of the `i`-th future -/
  | unlock (i : Nat)
  deriving DecidableEq, Repr

/-- what happens -/
inductive Ev where
  | lock
  | poll (i : Nat) (w : Waker) (ready : Bool)
  | cancel (i : Nat)
  /-- a guard is dropped, and a waker woken or none -/
  | unlock (i : Nat) (woke : Option Waker)
  deriving DecidableEq, Repr

/-- the mutex, the futures (`none`: gone) and the guards, by the future they came from -/
structure World where
  mutex : LocalMutex
  futs : List (Option GuardFuture)
  guards : List Nat
  deriving DecidableEq, Repr

/-- nothing is locked yet -/
def World.new : World := { mutex := .new, futs := [], guards := [] }

/-- One operation; `none` if there is no such future or guard. -/
def World.step (s : World) : Op → Option (Ev × World)
  | .lock => some (.lock, { s with futs := s.futs ++ [some LocalMutex.lock] })
  | .poll i w =>
    match s.futs[i]? with
    | some (some f) =>
      match s.mutex.poll f w with
      | (true, mutex, _) =>
        some (.poll i w true, { mutex, futs := s.futs.set i none, guards := i :: s.guards })
      | (false, mutex, f) =>
        some (.poll i w false, { s with mutex, futs := s.futs.set i (some f) })
    | _ => none
  | .cancel i =>
    match s.futs[i]? with
    | some (some _) => some (.cancel i, { s with futs := s.futs.set i none })
    | _ => none
  | .unlock i =>
    if i ∈ s.guards then
      let (w, mutex) := s.mutex.dropGuard
      some (.unlock i w, { s with mutex, guards := s.guards.erase i })
    else none

/-- operations one after the other, and what happens -/
def World.run (s : World) : List Op → Option (List Ev × World)
  | [] => some ([], s)
  | o :: os =>
    match s.step o with
    | some (e, s) =>
      match s.run os with
      | some (es, s) => some (e :: es, s)
      | none => none
    | none => none

end Sync

end Nora
