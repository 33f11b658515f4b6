import Verif.TopicLife.Model

/-
What should hold of a topic that is created, used and closed, in terms of what can be observed.
-/
namespace Braid.TopicLife.Spec

/-- The calls in progress after a history (given in reverse). -/
def active : List Ev → List (Nat × Op)
  | [] => []
  | .begin g o :: h => (g, o) :: active h
  | .finish g _ _ :: h => (active h).filter (·.1 ≠ g)
  | _ :: h => active h

/-- The calls in progress after the history `h`. -/
def activeOf (h : List Ev) : List (Nat × Op) := active h.reverse

/-- No command of a `newTopic` failed. -/
def CleanCreates (h : List Ev) : Prop := ∀ g, .fault g .create ∉ h

/-- The event came after the `Close` of `g` that is in progress was called. -/
def DuringClose (g : Nat) (e : Ev) (h : List Ev) : Prop :=
  ∃ p q, h = p ++ .begin g .close :: q ∧ (∀ o b, .finish g o b ∉ q) ∧ e ∈ q

end Braid.TopicLife.Spec
