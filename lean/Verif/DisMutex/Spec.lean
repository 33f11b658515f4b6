import Verif.DisMutex.Model

/-
What it means to hold the lock, in terms of calls, returns and time only.
-/
namespace Braid.DisMutex.Spec

/-- After the history `h`, at time `now`, goroutine `c` holds `key` with a lease that has not expired:
its `Lock` returned `value`, Redis set the key less than ten seconds ago, and `c` has not called
`Unlock` with the value. -/
def Holds (h : List Ev) (now c : Nat) (key value : String) : Prop :=
  ∃ t now', .locked c key value t now' ∈ h ∧ now < t + 10000 ∧ .unlockCall c key value ∉ h

/-- After the history `h`, at time `now`, there is a lock on `key`: an attempt has set it less than ten seconds ago,
and no `Unlock` has reported its release. -/
def Locked (h : List Ev) (now : Nat) (key : String) : Prop :=
  ∃ c v t r, .tried c key v t r ∈ h ∧ (r = .got ∨ r = .lost) ∧ now < t + 10000 ∧ .unlocked c key v true ∉ h

/-- After `h`, at time `now`, somebody has the lock on `key` or is about to get it: an attempt has set it less than ten
seconds ago, the reply has arrived, and no `Unlock` has reported its release. -/
def Owned (h : List Ev) (now : Nat) (key : String) : Prop :=
  ∃ c v t, .tried c key v t .got ∈ h ∧ now < t + 10000 ∧ .unlocked c key v true ∉ h

/-- The times and results of the attempts made with a value. -/
def attempts (v : String) : List Ev → List (Nat × Tried)
  | [] => []
  | .tried _ _ v' t r :: h => if v' = v then (t, r) :: attempts v h else attempts v h
  | _ :: h => attempts v h

/-- Each time is at least 700 ms after the one before. -/
def Spaced : List Nat → Prop
  | [] => True
  | [_] => True
  | a :: b :: l => a + 700 ≤ b ∧ Spaced (b :: l)

end Braid.DisMutex.Spec
