import Verif.Reuse.Model

/-
Specification of the use of a wrapper for several calls (C98).
-/
namespace Braid.Reuse.Spec

/-- C98 on a history: the process does not crash, and when a call has returned nil its message was handled, unless its
waiter gave up. -/
def Safe (h : List Ev) : Prop :=
  .crash ∉ h ∧ ∀ h1 h2 c, h = h1 ++ .ret c true :: h2 → .timeout c ∉ h1 → .handled c ∈ h1

/-- What happens by itself: all steps but new calls, the end of the context and timeouts. -/
def internal : Act → Prop
  | .call => False
  | .expire => False
  | .timeout _ => False
  | _ => True

/-- Nothing is left to do. -/
def AtRest (s : State) : Prop := ∀ a, internal a → step s a = none

/-- Runs in which calls are made only when nothing is left to do from earlier ones. -/
inductive Patient : List Ev → State → Prop
  | init : Patient [] init
  | step {h s a s' evs} : Patient h s → step s a = some (s', evs) → (a = .call → AtRest s) → Patient (h ++ evs) s'

/-- Every call but the last was accepted and returned without a timeout and before the context ended. -/
def Smooth (h : List Ev) : Prop :=
  ∀ h1 h2 c, h = h1 ++ .begin c :: h2 → ∀ d, .refused d ∉ h1 ∧ .timeout d ∉ h1 ∧ .expired d ∉ h1

end Braid.Reuse.Spec
