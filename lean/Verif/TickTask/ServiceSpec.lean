import Verif.TickTask.Service

/-
What the timer service should do (C64), from the history of calls alone.
-/
namespace Braid.TimerService

/-- What a call says about the owner of `id`: `some (some t)`: it is `t`; `some none`: it is nobody. -/
def says (info : Nat → Task) (id : String) : Op → Option (Option Nat)
  | .add t => if (info t).id = id then some (some t) else none
  | .remove i => if i = id then some none else none
  | _ => none

/-- The task that was added under `id` last and not removed since. -/
def owner (info : Nat → Task) (ops : List Op) (id : String) : Option Nat :=
  (ops.reverse.findSome? (says info id)).getD none

/-- The calls of a sequence use orders that list each id that has an owner once, and no other. -/
def GoodOrder (info : Nat → Task) (ops : List Op) (order : List String) : Prop :=
  order.Nodup ∧ ∀ id, id ∈ order ↔ owner info ops id ≠ none

end Braid.TimerService
