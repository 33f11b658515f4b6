import Verif.Chain.Spec

namespace Braid.Chain
variable {S E : Type}

theorem AllOk.append {a b : List (Lbl × Step S E)} {s s1 s2 : S} (h1 : AllOk a s s1)
    (h2 : AllOk b s1 s2) : AllOk (a ++ b) s s2 := by
  induction h1 with
  | nil s => simpa using h2
  | cons hx _ ih => exact .cons hx (ih h2)

def labelled (lbl : Nat → Lbl) (i : Nat) (xs : List (Step S E)) : List (Lbl × Step S E) :=
  (xs.zipIdx i).map fun p => (lbl p.2, p.1)

theorem loop_outcome (lbl : Nat → Lbl) (xs : List (Step S E)) (i : Nat) (s : S) :
    Outcome (labelled lbl i xs) s (loop lbl i xs s) := by
  induction xs generalizing i s with
  | nil => exact Or.inl ⟨.nil s, rfl, rfl⟩
  | cons x xs ih =>
    have hl : labelled lbl i (x :: xs) = (lbl i, x) :: labelled lbl (i + 1) xs := by
      simp [labelled]
    rw [hl]
    cases hx : x s with
    | mk s1 o =>
      cases o with
      | ok =>
        have := ih (i + 1) s1
        simp only [loop, hx]
        rcases this with ⟨h1, h2, h3⟩ | ⟨pre, l, y, post, s2, o, h1, h2, h3, h4, h5, h6⟩
        · exact Or.inl ⟨.cons hx h1, by simp [h2], h3⟩
        · exact Or.inr ⟨(lbl i, x) :: pre, l, y, post, s2, o, by simp [h1], .cons hx h2, h3, h4,
            by simp [h5], h6⟩
      | err e =>
        simp only [loop, hx]
        exact Or.inr ⟨[], _, x, _, s, _, rfl, .nil s, hx, by simp, rfl, rfl⟩
      | panic =>
        simp only [loop, hx]
        exact Or.inr ⟨[], _, x, _, s, _, rfl, .nil s, hx, by simp, rfl, rfl⟩

/-- Runs of the same steps agree. -/
theorem AllOk.det {a : List (Lbl × Step S E)} {s s1 s2 : S} (h1 : AllOk a s s1)
    (h2 : AllOk a s s2) : s1 = s2 := by
  induction h1 with
  | nil s => cases h2; rfl
  | cons hx _ ih =>
    cases h2 with
    | cons hy h => rw [hx] at hy; cases hy; exact ih h

end Braid.Chain
