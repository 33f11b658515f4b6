import Verif.Files.Model

/-
What the file helpers should do (C73, C74).
-/
namespace Braid.Files

/-- **C73**: after an operation that succeeded the file at `p` holds exactly `d`, and no other file has changed. -/
def Holds (fs fs' : Fs) (p : String) (d : Bytes) : Prop :=
  readFile fs' p = some d ∧ ∀ q, q ≠ p → readFile fs' q = readFile fs q

/-- **C74**: name and extension make up the file name. -/
def Splits (f : Bytes) : Prop := getFileRealName f ++ getFileExt f = f

/-- **C74**: the extension is empty, or begins with the last dot. -/
def ExtFromDot (f : Bytes) : Prop :=
  (dot ∉ f ∧ getFileExt f = []) ∨ ∃ a b, f = a ++ dot :: b ∧ dot ∉ b ∧ getFileExt f = dot :: b

end Braid.Files
