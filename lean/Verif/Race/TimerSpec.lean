import Verif.Timer.Spec

/-
Specification for C122: who is inside a call to a timer.
-/
namespace Braid.Race.Spec
open Braid.Timer

/-- Caller `u` has called `Reset` of timer `t`, which has not returned. -/
def InReset (u t : Nat) (h : List Ev) : Prop :=
  ∃ p d q, h = p ++ .resetCall u t d :: q ∧ ∀ b, .resetRet u t b ∉ q

/-- Caller `u` has called `Stop` (or `CancelTimer`) of timer `t`, which has not returned. -/
def InStop (u t : Nat) (h : List Ev) : Prop :=
  ∃ p q, h = p ++ .stopCall u t :: q ∧ ∀ b, .stopRet u t b ∉ q

/-- Caller `u` is inside a call to timer `t`. -/
def InCall (u t : Nat) (h : List Ev) : Prop := InReset u t h ∨ InStop u t h

/-- At most one tick of the timer was queued so far. -/
def Early (t : Nat) (h : List Ev) : Prop := (Timer.Spec.times t h).length ≤ 1

/-- Only one goroutine, say the actor itself, stops and resets timers. -/
def Sole (u : Nat) (h : List Ev) : Prop := (∀ v t, .stopCall v t ∈ h → v = u) ∧ ∀ v t d, .resetCall v t d ∈ h → v = u

end Braid.Race.Spec
