import Verif.WaitGroup.Model

/-
What the wait group wrapper should do (C65), from histories alone.
-/
namespace Braid.WaitGroup

/-- Sum of the arguments of all calls of `Add` and `Done`. -/
def called : List Ev → Int
  | [] => 0
  | .call _ d :: h => d + called h
  | _ :: h => called h

/-- Sum of the arguments of the calls that have taken effect. -/
def effect : List Ev → Int
  | [] => 0
  | .eff _ d :: h => d + effect h
  | _ :: h => effect h

/-- Whether `p` is inside `Add` or `Done` after `e`, given whether it was before. -/
def track (p : Nat) (b : Bool) : Ev → Bool
  | .call q _ => if q = p then true else b
  | .ret q => if q = p then false else b
  | _ => b

/-- `p` is inside `Add` or `Done`. -/
def busy (p : Nat) (h : List Ev) : Bool := h.foldl (track p) false

/-- No `Add` or `Done` is in progress. -/
def Quiet (h : List Ev) : Prop := ∀ p, busy p h = false

/-- The number of calls and of returns of `Wait`. -/
def waitCalls (h : List Ev) : Nat := h.countP fun e => match e with | .waitCall _ => true | _ => false
def waitRets (h : List Ev) : Nat := h.countP fun e => match e with | .waitRet _ => true | _ => false

/-- The number of `Wait`s in progress. -/
def waits (h : List Ev) : Nat := waitCalls h - waitRets h

/-- **C65**, `Wait`: there is a moment between its call and its return at which the calls that have taken
effect sum up to 0, namely the last step of `Wait`. -/
def WaitsForZero (h : List Ev) : Prop := ∀ h1 p h2, h = h1 ++ .waitRet p :: h2 → effect h1 = 0

/-- **C65**, use as documented by `sync.WaitGroup`: what takes effect is never 0 and keeps the sum between 0
and the largest `int32`, and it is added to a sum of 0 only when no `Wait` is in progress. -/
def Disciplined (h : List Ev) : Prop :=
  ∀ h1 p d h2, h = h1 ++ .eff p d :: h2 →
    d ≠ 0 ∧ 0 ≤ effect h1 + d ∧ effect h1 + d < 2147483648 ∧ (0 < effect h1 ∨ waits h1 = 0)

/-- Every `Done` follows its `Add`: the sum of what has taken effect is never negative (or too large). -/
def DoneAfterAdd (h : List Ev) : Prop :=
  ∀ h1 p d h2, h = h1 ++ .eff p d :: h2 → d ≠ 0 ∧ 0 ≤ effect h1 + d ∧ effect h1 + d < 2147483648

end Braid.WaitGroup
