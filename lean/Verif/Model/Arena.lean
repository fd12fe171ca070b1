import Verif.Model.Base
/-
Model of nora_ssh/src/arena.rs.
-/
namespace Nora
open R

variable {ε : Type}

/-- `Arena`, arena.rs:1 -/
abbrev Arena (α : Type) := List (Option α)

namespace Arena
variable {α : Type}

/-- `new`, arena.rs:4-6 -/
def new : Arena α := []

/-- `insert`, arena.rs:8-18 -/
def insert (a : Arena α) (v : α) : R ε (UInt32 × Arena α) := do
  let (i, a) : Nat × Arena α := match a.findIdx? (fun v => v.isNone) with
    | some i => (i, a.set i (some v))
    | none => (a.length, a ++ [some v])
  let i ← u32TryFrom i
  .ok (i, a)

/-- `remove`, arena.rs:20-25: what was there, and the arena afterwards -/
def remove (a : Arena α) (i : UInt32) : Option α × Arena α :=
  match a[i.toNat]? with
  | some v => (v, a.set i.toNat none)
  | none => (none, a)

/-- `get_mut`, arena.rs:27-32, used to read -/
def get (a : Arena α) (i : UInt32) : Option α :=
  match a[i.toNat]? with
  | some v => v
  | none => none

/-- writing `v` through the reference returned by `get_mut`, arena.rs:27-32 -/
def put (a : Arena α) (i : UInt32) (v : α) : Arena α :=
  match a[i.toNat]? with
  | some (some _) => a.set i.toNat (some v)
  | _ => a

end Arena

end Nora
