import Verif.Live.Model

/-
Specification of C118: an actor that was registered is found until it is unregistered.
-/
namespace Braid.Live.Spec
open AddressBook

/-- An operation of a goroutine. -/
inductive Op
  | reg (n : Nat) (b : Register.Builder)
  | unreg (n : Nat) (id ty : String)
  | call (n : Nat) (target ty : String)
deriving DecidableEq

/-- The operations in progress after the reversed history. -/
def active : List Ev → List (Nat × Op)
  | [] => []
  | .call g n target ty :: h => (g, .call n target ty) :: active h
  | .reg (.begin g (.reg n b)) :: h => (g, .reg n b) :: active h
  | .reg (.begin g (.unreg n id ty)) :: h => (g, .unreg n id ty) :: active h
  | .ret g _ :: h => (active h).filter (·.1 ≠ g)
  | .reg (.finish g _) :: h => (active h).filter (·.1 ≠ g)
  | _ :: h => active h

/-- The operations in progress after the history `h`. A call that cleans up lasts until the cleanup is over. -/
def activeOf (h : List Ev) : List (Nat × Op) := active h.reverse

/-- What begins with an event. -/
def begins : Ev → Option Op
  | .call _ n target ty => some (.call n target ty)
  | .reg (.begin _ (.reg n b)) => some (.reg n b)
  | .reg (.begin _ (.unreg n id ty)) => some (.unreg n id ty)
  | _ => none

/-- The operation creates or removes the actor `id` of node `n`. -/
def Changes (n : Nat) (id : String) : Op → Prop
  | .reg m b => m = n ∧ b.id = id
  | .unreg m x _ => m = n ∧ x = id
  | .call _ _ _ => False

/-- The operation is a call on node `n` that may be for the actor `id` of type `ty`: by its id, or for any actor
of the type. -/
def Meets (n : Nat) (id ty : String) : Op → Prop
  | .call m target t => m = n ∧ (target = id ∨ (target = "?" ∨ target = "~") ∧ t = ty)
  | _ => False

/-- While the actor is created or removed no other operation does so, and no call is made on its node that may
be for it. -/
def Apart (n : Nat) (id ty : String) (h : List Ev) : Prop :=
  ∀ pre e post o, h = pre ++ e :: post → begins e = some o → ∀ p ∈ activeOf pre,
    (Changes n id o → ¬ Changes n id p.2 ∧ ¬ Meets n id ty p.2) ∧ (Meets n id ty o → ¬ Changes n id p.2)

/-- The id belongs to one node and one type: only this node creates or removes an actor `id`. -/
def Owned (n : Nat) (id ty : String) (h : List Ev) : Prop :=
  ∀ e ∈ h, ∀ o, begins e = some o →
    match o with
    | .reg m b => b.id = id → m = n ∧ b.ty = ty
    | .unreg m x _ => x = id → m = n
    | .call _ _ _ => True

/-- No other node has the address of node `n`. -/
def OwnAddress (cfg : Nat → NodeCfg) (n : Nat) : Prop :=
  ∀ m, (cfg m).ip = (cfg n).ip → (cfg m).port = (cfg n).port → m = n

/-- No `Unregister` of the actor begins. -/
def Calm (n : Nat) (id : String) (l : List Ev) : Prop := ∀ e ∈ l, ∀ t, begins e ≠ some (.unreg n id t)

/-- A `Register` of the actor has returned nil, and no `Unregister` of it has begun since. -/
def Registered (n : Nat) (id : String) (h : List Ev) : Prop :=
  ∃ pre g b post, h = pre ++ .reg (.finish g .ok) :: post ∧ (g, .reg n b) ∈ activeOf pre ∧ b.id = id ∧
    Calm n id post

/-- The record of the actor. -/
def record (cfg : Nat → NodeCfg) (n : Nat) (id ty : String) : Addr :=
  ⟨id, ty, (cfg n).nodeID, (cfg n).ip, (cfg n).port⟩

/-- Every node finds the actor by its id and by its type. -/
def Found (cfg : Nat → NodeCfg) (n : Nat) (id ty : String) (W : World) : Prop :=
  W.redis.ids id = some (record cfg n id ty) ∧ record cfg n id ty ∈ W.redis.tys ty

/-- The event ends the operation of `g`. -/
def Ends (g : Nat) : Ev → Prop
  | .ret g' _ => g' = g
  | .reg (.finish g' _) => g' = g
  | _ => False

end Braid.Live.Spec
