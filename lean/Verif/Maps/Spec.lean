import Verif.Maps.Model

/-
Specification of the accesses to shared maps (C99).
-/
namespace Braid.Maps.Spec

/-- Two goroutines are in the map at the same time, and one of them writes. (For Go maps this is a fatal error, which
cannot be recovered from; for other variables the values are undefined.) -/
def Race (h : List Ev) : Prop :=
  ∃ h1 h2 h3 g k d j, h = h1 ++ .enter g k :: h2 ++ .enter d j :: h3 ∧ g ≠ d ∧ .leave g ∉ h2 ∧ (k = .write ∨ j = .write)

/-- C99 for goroutines that run these paths. -/
def Safe (P : List (List Op)) : Prop := ∀ h s, (sys P).Run h s → ¬ Race h

/-- Goroutines that run these paths never get stuck: as long as one of them is on its way, one of them can go on. -/
def Live (P : List (List Op)) : Prop :=
  ∀ h s, (sys P).Run h s → (∃ g, s.todo g ≠ [] ∨ s.ins g ≠ none) → ∃ g s' evs, step P s (.run g) = some (s', evs)

end Braid.Maps.Spec
