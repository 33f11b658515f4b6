/-
Model of entity versions: `core/entity.go:33-73`.

A strategy is its version and a number that stands for the reason and the function. Versions are unbounded ints.
`RegisterVersionStrategy` writes the list without the lock that the readers hold; calls are taken one at a time.
-/
namespace Braid.Versions

/-- core/entity.go:69-73 -/
structure Strategy where
  version : Int
  func : Nat
deriving DecidableEq

/-- core/entity.go:37-39 -/
def register (l : List Strategy) (s : Strategy) : List Strategy := l ++ [s]

/-- core/entity.go:43-53; `none`: ErrNotfoundVersion -/
def getVerStrategy : List Strategy → Int → Option Strategy
  | [], _ => none
  | s :: l, v => if s.version = v then some s else getVerStrategy l v

/-- core/entity.go:55-67 -/
def getNextVersion : List Strategy → Int → Int
  | [], v => v
  | s :: l, v => if s.version > v then s.version else getNextVersion l v

/-- `GetNextVersion` applied again and again: the versions that come after `v`, until it does not change; `none`:
not finished after `fuel` steps. (core/entity.go:55-67) -/
def upgrade (l : List Strategy) : Nat → Int → Option (List Int)
  | 0, _ => none
  | fuel + 1, v =>
    let n := getNextVersion l v
    if n = v then some [] else (upgrade l fuel n).map (n :: ·)

end Braid.Versions
