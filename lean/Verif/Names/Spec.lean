import Verif.Names.Model

/-
What short names should be (C77).
-/
namespace Braid.Names

/-- `r` is the part of `s` after the last `c`. -/
def AfterLast (c : UInt8) (s r : Bytes) : Prop := ∃ a, s = a ++ c :: r ∧ c ∉ r

/-- `r` is the last component of the path `s`. -/
def LastComponent (s r : Bytes) : Prop := (slash ∉ s ∧ r = s) ∨ AfterLast slash s r

/-- **C77**, functions: the part after the last dot of the last component; the name as it is if that has no dot. -/
def ShortFunc (name r : Bytes) : Prop :=
  ∃ l, LastComponent name l ∧ (AfterLast dot l r ∨ (dot ∉ l ∧ r = name))

end Braid.Names
