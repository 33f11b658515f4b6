import Verif.Loader.Model

/-
What the loader should do (C84, C85).
-/
namespace Braid.Loader

/-- The factory: a map (each type once), whose constructors have the names of their types. -/
def WellFormed (keys : List (String × Nat)) (h : Heap) : Prop :=
  (keys.map (·.1)).Nodup ∧ ∀ x ∈ keys, (h x.2).name = x.1

/-- **C84**: the actors a node should register: every type that is not dynamic, once. -/
def wanted (keys : List (String × Nat)) (h : Heap) (node : String) : List (String × String) :=
  (keys.filter fun x => !(h x.2).dynamic).map fun x =>
    (x.1, node ++ "_" ++ if (h x.2).id = "" then x.1 else (h x.2).id)

/-- **C85**: every actor sees the options of its builder, its id and its type, and no others. -/
def Exact (h : List Ev) : Prop :=
  ∀ i n id o, Ev.made i n id o ∈ h → ∃ ty ob, Ev.picked i ty ob ∈ h ∧
    ∀ k, o k = if k = "ActorID" then some id else if k = "ActorTy" then some ty else ob k

end Braid.Loader
