import Verif.AddressBook.Model

/-
The abstract directory that the address book should implement: the list of registered actors.
-/
namespace Braid.AddressBook.Spec

/-- One registered actor: its id, type, node and weight. -/
structure Reg where
  id : String
  ty : String
  node : Nat
  weight : Int
deriving DecidableEq

/-- What should be registered after an operation: an id is registered once, unregistering removes
it, clearing removes everything of the node. -/
def dirStep (d : List Reg) : Op → List Reg
  | .register n ty id w => if id = "" ∨ ty = "" ∨ (∃ r ∈ d, r.id = id) then d else d ++ [⟨id, ty, n, w⟩]
  | .unregister _ id _ => d.filter (·.id ≠ id)
  | .clear n => d.filter (·.node ≠ n)

/-- What should be registered after a list of operations. -/
def dir (ops : List Op) : List Reg := ops.foldl dirStep []

/-- The nodes that cleared their registrations, as a node does when it stops. -/
def stopped : List Op → List Nat
  | [] => []
  | .clear n :: r => n :: stopped r
  | _ :: r => stopped r

/-- The node of an operation. -/
def opNode : Op → Nat
  | .register n _ _ _ => n
  | .unregister n _ _ => n
  | .clear n => n

/-- An operation that follows the rules: ids are used by one node each (`own`), the weight given at
unregistering is that given at registering, and the node has not stopped. -/
def Legal (own : String → Nat) (before : List Op) (op : Op) : Prop :=
  opNode op ∉ stopped before ∧
  match op with
  | .register n _ id _ => own id = n
  | .unregister n id w => own id = n ∧ ∀ r ∈ dir before, r.id = id → r.weight = w
  | .clear _ => True

/-- A list of operations that all follow the rules. -/
def LegalOps (own : String → Nat) (ops : List Op) : Prop :=
  ∀ pre op post, ops = pre ++ op :: post → Legal own pre op

/-- The total weight of the actors that satisfy `p`. -/
def weightOf (d : List Reg) (p : Reg → Bool) : Int := ((d.filter p).map (·.weight)).sum

/-- The address that lookups should give for a registered actor. -/
def Reg.addr (cfg : Nat → NodeCfg) (r : Reg) : Addr :=
  ⟨r.id, r.ty, (cfg r.node).nodeID, (cfg r.node).ip, (cfg r.node).port⟩

/-- A result of `SRANDMEMBER key 10`: distinct members, ten of them or all. -/
def IsSample (members sample : List Addr) : Prop :=
  sample.Nodup ∧ (∀ a ∈ sample, a ∈ members) ∧ sample.length = min 10 members.length

/-- An order in which Go may iterate over the node map. -/
def IsOrder (nodes : String → Option Addr) (l : List (String × Addr)) : Prop :=
  (l.map (·.1)).Nodup ∧ ∀ k a, (k, a) ∈ l ↔ nodes k = some a

end Braid.AddressBook.Spec
