import Verif.Register.Model

/-
Specification of creating and removing actors (C29–C31), in terms of what can be observed.
-/
namespace Braid.Register.Spec

/-- The operations in progress after a history. -/
def active : List Ev → List (Nat × Op)
  | [] => []
  | e :: h =>
    -- the history is processed from its end, see `activeOf`
    match e with
    | .begin g o => (g, o) :: active h
    | .finish g _ => (active h).filter (·.1 ≠ g)
    | _ => active h

/-- The operations in progress after the history `h`. -/
def activeOf (h : List Ev) : List (Nat × Op) := active h.reverse

/-- No operation starts while another one with the same key is in progress. -/
def Exclusive {κ : Type} (key : Op → Option κ) (h : List Ev) : Prop :=
  ∀ pre g o post, h = pre ++ .begin g o :: post →
    ∀ p ∈ activeOf pre, ∀ k, key o = some k → key p.2 ≠ some k

/-- The actor object `i` is alive after the history `h`. -/
def Alive (h : List Ev) (i : Nat) (a : Inst) : Prop := .created i a ∈ h ∧ .exited i ∉ h

/-- The node and the id that a `Register` or `Unregister` concerns. -/
def idKey : Op → Option (Nat × String)
  | .reg n b => some (n, b.id)
  | .unreg n id _ => some (n, id)
  | .clean _ _ _ => none

/-- The node and the type of a `Register`. -/
def nodeTypeKey : Op → Option (Nat × String)
  | .reg n b => some (n, b.ty)
  | _ => none

/-- The type of a `Register`. -/
def typeKey : Op → Option String
  | .reg _ b => some b.ty
  | _ => none

end Braid.Register.Spec
