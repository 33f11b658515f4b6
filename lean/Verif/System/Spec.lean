import Verif.System.Model

/-
Specification of routing (C22–C28): where the actors are, and when the address book is consistent with it.
-/
namespace Braid.System.Spec
open AddressBook

/-- Node `n` hosts an actor with this id and type. -/
def Hosts (C : Cluster) (n : Nat) (id ty : String) : Prop := (id, ty) ∈ (C.node n).actors

/-- The address of an actor of node `n`. -/
def address (C : Cluster) (n : Nat) (ty id : String) : Addr :=
  ⟨id, ty, (C.cfg n).nodeID, (C.cfg n).ip, (C.cfg n).port⟩

/-- The address book says where the actors are, every id is used once, and every node listens at its own
address. -/
structure Consistent (C : Cluster) (W : World) : Prop where
  unique : ∀ n m id ty ty', Hosts C n id ty → Hosts C m id ty' → n = m ∧ ty = ty'
  ids : ∀ id a, W.redis.ids id = some a ↔ ∃ n ty, Hosts C n id ty ∧ a = address C n ty id
  tys : ∀ ty a, a ∈ W.redis.tys ty ↔ ∃ n id, Hosts C n id ty ∧ a = address C n ty id
  idmap : ∀ n id, W.idmap n id = true → ∃ ty, Hosts C n id ty
  listen : ∀ n, C.listen (C.cfg n).ip (C.cfg n).port = some n
  nodup : ∀ ty, (W.redis.tys ty).Nodup
  named : ∀ n id ty, Hosts C n id ty → id ≠ ""

/-- An id that is not one of the symbols `?` and `~` (`#` and `*` are ids for the code). -/
def Plain (target : String) : Prop := target ≠ "?" ∧ target ≠ "~"

/-- A record that was in the address book and no longer is. -/
def Removed (W W' : World) (a : Addr) : Prop :=
  (∃ id, W.redis.ids id = some a ∧ W'.redis.ids id ≠ some a) ∨
  ∃ ty, a ∈ W.redis.tys ty ∧ a ∉ W'.redis.tys ty

/-- The record says that node `n` hosts an actor, and node `n` does not host it. -/
def DeadRecord (C : Cluster) (n : Nat) (a : Addr) : Prop :=
  a.node = (C.cfg n).nodeID ∧ ∀ ty, ¬ Hosts C n a.actorId ty

/-- The part of the address book that node `n` relies on when it cleans up: both kinds of records agree,
records at the address of this node are of this node, and its `IDMap` does not claim ids of other nodes.
Actors of this node have the type of their record. Nothing is assumed about which actors are running. -/
structure Coherent (C : Cluster) (W : World) (n : Nat) : Prop where
  ids : ∀ id a, W.redis.ids id = some a → a.actorId = id
  sets : ∀ ty a, a ∈ W.redis.tys ty → W.redis.ids a.actorId = some a ∧ a.actorTy = ty
  addr : ∀ id a, W.redis.ids id = some a → a.ip = (C.cfg n).ip → a.port = (C.cfg n).port →
    a.node = (C.cfg n).nodeID
  own : ∀ id a, W.idmap n id = true → W.redis.ids id = some a → a.node = (C.cfg n).nodeID
  types : ∀ id a ty, W.redis.ids id = some a → a.node = (C.cfg n).nodeID → Hosts C n id ty → ty = a.actorTy

end Braid.System.Spec
