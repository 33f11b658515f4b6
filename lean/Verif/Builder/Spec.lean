import Verif.Builder.Model
/-
Specification of builder options (C60), in terms of the calls made.
-/
namespace Braid.Builder.Spec

/-- The type for which each builder was made, in order; types unknown to the factory make none. -/
def types (known : String → Bool) (l : List Op) : List String := l.filterMap fun
  | .make ty => if known ty then some ty else none
  | _ => none

/-- The effect of a call on the value of key `k`, if calls on builders in `bs` count. -/
def optStep (bs : Nat → Bool) (k : String) (d : String) : Op → String
  | .withOpt b k' v => if bs b = true ∧ k' = k then v else d
  | _ => d

/-- The value that the calls on builders in `bs` gave to key `k`, or `d`. -/
def sharedOpt (bs : Nat → Bool) (k : String) (d : String) (l : List Op) : String := l.foldl (optStep bs k) d

/-- The value that the calls on builder `b` gave to key `k`, or `d`. -/
def ownOpt (b : Nat) (k : String) (d : String) (l : List Op) : String := sharedOpt (fun b' => decide (b' = b)) k d l

/-- The effect of a call on the id of builder `b`. -/
def idStep (b : Nat) (d : String) : Op → String
  | .withID b' id => if b' = b then id else d
  | _ => d

/-- The id that the calls on builder `b` gave to it, or `d`. -/
def ownID (b : Nat) (d : String) (l : List Op) : String := l.foldl (idStep b) d

end Braid.Builder.Spec
