import Verif.Shutdown.Model

/-
What a graceful shutdown should do (C66), from histories alone.
-/
namespace Braid.Shutdown

/-- `x` happens before `y` in `h`. -/
def Earlier (h : List Ev) (x y : Ev) : Prop := ∃ h1 h2, h = h1 ++ y :: h2 ∧ x ∈ h1

/-- **C66**: when a graceful shutdown is reported all actors that were put into the map have ended. -/
def AllStopped (h : List Ev) : Prop :=
  ∀ h1 h2, h = h1 ++ .graceful :: h2 → ∀ a, .put a ∈ h1 → .stopped a ∈ h1

/-- The same for the actors that were there when the signal came. -/
def OldStopped (h : List Ev) : Prop :=
  ∀ h1 h2, h = h1 ++ .graceful :: h2 → ∀ a, Earlier h1 (.put a) .sig → .stopped a ∈ h1

/-- **C66**: the acceptor is closed before the shutdown asks the first actor to exit. -/
def AcceptorFirst (h : List Ev) : Prop := ∀ h1 h2 a, h = h1 ++ .ask a :: h2 → .accClosed ∈ h1

/-- Whether the address book has a record of `a` after `e`, given whether it had one before. -/
def track (a : Nat) (b : Bool) : Ev → Bool
  | .recorded x => if x = a then true else b
  | .erased x => if x = a then false else b
  | .cleared => false
  | _ => b

def recorded (h : List Ev) (a : Nat) : Bool := h.foldl (track a) false

/-- **C66**: when a graceful shutdown is reported the address book has no record of the node's actors. -/
def RecordsGone (h : List Ev) : Prop := ∀ h1 h2, h = h1 ++ .graceful :: h2 → ∀ a, recorded h1 a = false

/-- No record is written after the signal. -/
def NoLateRecord (h : List Ev) : Prop := ∀ h1 h2, h = h1 ++ .sig :: h2 → ∀ a, .recorded a ∉ h2

end Braid.Shutdown
