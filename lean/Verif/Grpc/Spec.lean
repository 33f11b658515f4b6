import Verif.Grpc.Model

/-
Specification of the gRPC client (C51–C53), in terms of what can be observed.
-/
namespace Braid.Grpc.Spec

/-- Who holds a slot after an event. -/
def holdStep (l : List Nat) : Ev → List Nat
  | .acquired g => g :: l
  | .freed g => l.erase g
  | _ => l

/-- The goroutines that hold a slot after a history. -/
def holders (h : List Ev) : List Nat := h.foldl holdStep []

/-- Where a goroutine is, seen from outside. -/
inductive Phase
  | out
  | waiting
  | holding
  | gaveBack
  | inWait
deriving DecidableEq

/-- What a goroutine may do next: a `Call` either gets a slot, uses and returns it and then ends, or ends without
having had one because its context ended. `none`: not allowed. -/
def allowed (g : Nat) : Phase → Ev → Option Phase
  | p, .begin g' o =>
    if g' ≠ g then some p else
    match p, o with
    | .out, .call _ _ => some .waiting
    | .out, .callWait _ => some .inWait
    | _, _ => none
  | p, .acquired g' => if g' ≠ g then some p else if p = .waiting then some .holding else none
  | p, .sent g' _ _ _ => if g' ≠ g then some p else if p = .holding ∨ p = .inWait then some p else none
  | p, .opened g' _ _ => if g' ≠ g then some p else if p = .inWait then some p else none
  | p, .freed g' => if g' ≠ g then some p else if p = .holding then some .gaveBack else none
  | p, .finish g' r =>
    if g' ≠ g then some p else
    match p, decide (r = .noSlot) with
    | .waiting, true => some .out
    | .gaveBack, false => some .out
    | .inWait, false => some .out
    | _, _ => none

/-- The phase of `g` after a history, `none` if it did something that is not allowed. -/
def phase (g : Nat) (h : List Ev) : Option Phase := h.foldl (fun p e => p.bind (allowed g · e)) (some .out)

/-- Goroutine `g` is in a `CallWait` for address `a`. -/
def InWait (g : Nat) (a : String) (h : List Ev) : Prop :=
  ∃ p q, h = p ++ .begin g (.callWait a) :: q ∧ ∀ r, .finish g r ∉ q

/-- `CallWait`s for address `a` do not overlap. -/
def NoOverlap (a : String) (h : List Ev) : Prop :=
  ∀ pre g post, h = pre ++ .begin g (.callWait a) :: post → ∀ g', ¬ InWait g' a pre

/-- The connections opened to an address. -/
def openedTo (a : String) (h : List Ev) : List Nat := h.filterMap fun
  | .opened _ a' c => if a' = a then some c else none
  | _ => none

/-- The address a call is made for. -/
def target : Op → String
  | .call a _ => a
  | .callWait a => a

/-- Goroutine `g` begins and ends no call in `k`. -/
def Within (g : Nat) (k : List Ev) : Prop := ∀ e ∈ k, (∀ o, e ≠ .begin g o) ∧ ∀ r, e ≠ .finish g r

/-- What goroutine `g` sent: address, connection, and whether it was answered. -/
def sends (g : Nat) (k : List Ev) : List (String × Nat × Bool) := k.filterMap fun
  | .sent g' a c ok => if g' = g then some (a, c, ok) else none
  | _ => none

/-- The connections that goroutine `g` opened. -/
def opens (g : Nat) (k : List Ev) : List (String × Nat) := k.filterMap fun
  | .opened g' a c => if g' = g then some (a, c) else none
  | _ => none

/-- Something was sent to the address. -/
def Used (a : String) (h : List Ev) : Prop := ∃ g c ok, .sent g a c ok ∈ h

/-- What a call `o` with the result `r` has sent. -/
def Result (o : Op) (r : Res) (l : List (String × Nat × Bool)) : Prop :=
  match r with
  | .ok => ∃ c, l = [(target o, c, true)]
  | .invoke => ∃ c, l = [(target o, c, false)]
  | .noSlot => l = [] ∧ ∃ a b, o = .call a b
  | .noConn => l = [] ∧ ∃ a b, o = .call a b
  | .badOption => l = [] ∧ ∃ a, o = .call a false
  | .noDial => l = [] ∧ ∃ a, o = .callWait a

/-- At no time are more than `k` goroutines in a `CallWait` for address `a`. -/
def AtMost (k : Nat) (a : String) (h : List Ev) : Prop :=
  ∀ p q, h = p ++ q → ∀ l : List Nat, l.Nodup → (∀ g ∈ l, InWait g a p) → l.length ≤ k

end Braid.Grpc.Spec
