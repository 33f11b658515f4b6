import Verif.Register.Spec

/-
Specification of how far the limits on actors can be exceeded (C30, C31): how many `Register` calls overlap.
-/
namespace Braid.Register.Spec

/-- The number of operations with the key `k` that are in progress after the history `h`. -/
def busy {κ : Type} [DecidableEq κ] (key : Op → Option κ) (k : κ) (h : List Ev) : Nat :=
  (activeOf h).countP fun p => decide (key p.2 = some k)

/-- At no time more than `K` operations with the key `k` are in progress. -/
def AtMost {κ : Type} [DecidableEq κ] (key : Op → Option κ) (k : κ) (K : Nat) (h : List Ev) : Prop :=
  ∀ pre post, h = pre ++ post → busy key k pre ≤ K

/-- No record is removed behind the back of the owner: there is no cleanup, and `Register` and `Unregister` of an id
happen on one node only. -/
def OneOwner (h : List Ev) : Prop :=
  ∃ owner : String → Nat, ∀ g o, .begin g o ∈ h → ∃ n id, idKey o = some (n, id) ∧ owner id = n

end Braid.Register.Spec
