import Verif.Panic.Model

/-
What C116 is about, apart from the model.
-/
namespace Braid.Panic
variable {σ P : Type}

/-- **C116**, the full statement: no code of a user ends the process, and none ends the loop of an actor. -/
def Contained (recovery : P → Fn σ P) (u : σ) : Prop :=
  ∀ h s, (sys recovery u).Run h s → Ev.crash ∉ h ∧ ∀ a, Ev.loopEnded a ∉ h

/-- Code of which a panic reaches nobody who recovers: callbacks of futures, and the recovery function itself. -/
def Bare : Place → Prop
  | .callback _ => True
  | .recoverer _ => True
  | _ => False

/-- The actor on whose loop the code runs. -/
def on : Place → Option Nat
  | .handler a _ => some a
  | .timer a => some a
  | .recoverer a => some a
  | .action a _ => some a
  | _ => none

/-- A panic that nobody recovers from. -/
def Escaped (h : List (Ev P)) : Prop := ∃ p v, Bare p ∧ Ev.ran p (.panic v) ∈ h

/-- Code on the loop of actor `a` ended the goroutine it ran on. -/
def LeftLoop (a : Nat) (h : List (Ev P)) : Prop := ∃ p, on p = some a ∧ Ev.ran p .goexit ∈ h

/-- The recovery function only ever returns, as `defaultRecovery` does. -/
def Quiet (recovery : P → Fn σ P) : Prop := ∀ v s, (recovery v s).2 = .ret

def isTook (a m : Nat) : Ev P → Bool
  | .took a' m' => a' == a && m' == m
  | _ => false

def isDone (a m : Nat) : Ev P → Bool
  | .done a' m' => a' == a && m' == m
  | _ => false

end Braid.Panic
