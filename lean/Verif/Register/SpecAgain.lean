import Verif.Register.Spec

/-
Specification of C127: an id that was unregistered can be registered again.
-/
namespace Braid.Register
open AddressBook Spec

/-- The cluster when no Redis access fails and every type has a constructor. (core/node/system_impl.go:99-187) -/
def calm (cfg : Nat → NodeCfg) (factory : Nat → String → Option Int) : Lts State Act Ev :=
  ⟨init, fun s a => match a with
    | .fail _ => none
    | a => step cfg factory s a⟩

namespace Spec

/-- The id that an operation concerns. -/
def idOf : Op → String
  | .reg _ b => b.id
  | .unreg _ id _ => id
  | .clean _ id _ => id

/-- The id is used by one node: it alone registers and unregisters actors with this id, it unregisters them with a type that the
factory knows, and nobody removes the record while cleaning up. -/
def OneNode (factory : Nat → String → Option Int) (n : Nat) (id : String) (h : List Ev) : Prop :=
  ∀ g o, .begin g o ∈ h → idOf o = id →
    (∃ b, o = .reg n b) ∨ ∃ ty, o = .unreg n id ty ∧ factory n ty ≠ none

/-- No operation on this id is in progress after the history. -/
def Quiet (id : String) (h : List Ev) : Prop := ∀ p ∈ activeOf h, idOf p.2 ≠ id

/-- An actor of node `n` with this id exists after the history. -/
def Has (h : List Ev) (n : Nat) (id : String) : Prop := ∃ i a, Alive h i a ∧ a.node = n ∧ a.id = id

/-- A `Register` on node `n` by goroutine `g` succeeds. -/
def Succeeds (cfg : Nat → NodeCfg) (factory : Nat → String → Option Int) (s : State) (g n : Nat) (b : Builder) : Prop :=
  ∃ as s' i, (calm cfg factory).exec s (.start g (.reg n b) :: as) =
      some (s', [.begin g (.reg n b), .created i ⟨n, b.id, b.ty⟩, .finish g .ok])

/-- C127: if no actor with the id exists on the node and no operation on the id is in progress, the id can be registered there,
if there is no limit. -/
def Again (cfg : Nat → NodeCfg) (factory : Nat → String → Option Int) : Prop :=
  ∀ h s n (b : Builder), (calm cfg factory).Run h s → Exclusive idKey h → Quiet b.id h → ¬ Has h n b.id →
    b.id ≠ "" → b.ty ≠ "" → b.limit = 0 → ∀ g, (∀ o, (g, o) ∉ activeOf h) → Succeeds cfg factory s g n b

end Spec
end Braid.Register
