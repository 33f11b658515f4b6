import Verif.Lib.Lts

/-
Data races (C112, C113): two goroutines use a variable that no lock, atomic operation or channel protects, one right after
the other, and one of the two writes. (https://go.dev/ref/mem; with sequentially consistent executions, as here, a program
has a data race exactly if it has one between neighbouring steps.)
-/
namespace Braid.Race

/-- A use of a plain variable. -/
structure Acc (V : Type) where
  var : V
  write : Bool
deriving DecidableEq

/-- Two uses that must not happen at the same time. -/
def Conflict {V : Type} (a b : Acc V) : Prop := a.var = b.var ∧ (a.write = true ∨ b.write = true)

/-- In state `s` the actions `a` and `b` of two goroutines follow each other and conflict. `who` says whose action it is,
`acc` which plain variables it uses. -/
def RaceAt {S A E W V : Type} (M : Lts S A E) (who : A → W) (acc : S → A → List (Acc V)) (s : S) (a b : A) : Prop :=
  ∃ s1 e1 s2 e2, M.step s a = some (s1, e1) ∧ M.step s1 b = some (s2, e2) ∧ who a ≠ who b ∧
    ∃ x ∈ acc s a, ∃ y ∈ acc s1 b, Conflict x y

end Braid.Race
