import Verif.Errcode.Model
/-
Specification of error codes (C56).
-/
namespace Braid.Errcode.Spec

/-- `e` is the code `c`, wrapped any number of times. -/
inductive Carries (c : Code) : Err → Prop
  | code : Carries c (.code c)
  | wrap {e t} : Carries c e → Carries c (.wrap e t)

/-- `e` carries no code. -/
def NoCode (e : Err) : Prop := ∀ c, ¬ Carries c e

/-- The number that a possibly nil code stands for. -/
inductive Number : Option Code → Int → Prop
  | nil : Number none 0
  | code {n m} : Number (some ⟨n, m⟩) n

end Braid.Errcode.Spec
