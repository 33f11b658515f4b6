import Verif.Live.Spec

/-
Specification of C121: an actor that was unregistered is gone.
-/
namespace Braid.Live.Spec
open AddressBook

/-- The cluster, where no Redis command fails and no constructor is missing while a goroutine is at one of the
points `bad`. -/
def sureSys (cfg : Nat → NodeCfg) (factory : Nat → String → Option Int) (bad : Register.Pc → Bool) :
    Lts State Act Ev :=
  ⟨init, fun s a =>
    match a with
    | .reg (.fail g) => if bad (s.r.pc g) then none else step cfg factory s a
    | a => step cfg factory s a⟩

/-- The points where `Unregister` and the cleanup use Redis. -/
def removing : Register.Pc → Bool
  | .uGet _ _ _ _ => true
  | .uPipe _ _ _ _ _ _ => true
  | _ => false

/-- No `Register` of the actor begins. -/
def Still (n : Nat) (id : String) (l : List Ev) : Prop :=
  ∀ e ∈ l, ∀ b : Register.Builder, b.id = id → begins e ≠ some (.reg n b)

/-- An `Unregister` of the actor has returned nil, and no `Register` of it has begun since. -/
def Unregistered (n : Nat) (id : String) (h : List Ev) : Prop :=
  ∃ pre g t post, h = pre ++ .reg (.finish g .ok) :: post ∧ (g, .unreg n id t) ∈ activeOf pre ∧ Still n id post

/-- An `Unregister` of the actor has returned, with or without an error, and no `Register` of it has begun
since. -/
def Returned (n : Nat) (id : String) (h : List Ev) : Prop :=
  ∃ pre g r t post, h = pre ++ .reg (.finish g r) :: post ∧ r ≠ .panic ∧ (g, .unreg n id t) ∈ activeOf pre ∧
    Still n id post

/-- No record of the actor is left: neither by its id, nor among those of any type, nor in the `IDMap` of any
node. -/
def NoRecord (id : String) (W : World) : Prop :=
  W.redis.ids id = none ∧ (∀ t, ∀ a ∈ W.redis.tys t, a.actorId ≠ id) ∧ ∀ m, W.idmap m id = false

/-- A call that ends like this has found the actor. -/
def Finds (id : String) : Ev → Prop
  | .ret _ (.here x) => x = id
  | .ret _ (.forward a) => a.actorId = id
  | _ => False

end Braid.Live.Spec
