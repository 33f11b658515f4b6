import Verif.AddressBook.Props

/-
Property C35: exactly for which loads the wildcard lookup is right.
-/
namespace Braid.AddressBook

/-- Specification: the result is a candidate whose load is readable and least, or an error if no load is readable. -/
def LeastOrNone (weight : String → Option Int) (sample : List Addr) (r : Except LookupErr Addr) : Prop :=
  (∃ a, r = .ok a ∧ a ∈ sample ∧ ∃ w, weight a.node = some w ∧ ∀ b ∈ sample, ∀ v, weight b.node = some v → w ≤ v) ∨
  (∃ e, r = .error e) ∧ ∀ b ∈ sample, weight b.node = none

/-- C35, exactly: the lookup is right iff no load is readable, or one is below the largest int. -/
theorem C35_exact (weight : String → Option Int) (sample : List Addr) :
    LeastOrNone weight sample (wildcard weight sample) ↔
      (∀ b ∈ sample, weight b.node = none) ∨ ∃ b ∈ sample, ∃ w, weight b.node = some w ∧ w < 2 ^ 63 - 1 := by
  obtain ⟨h1, h2⟩ := C35_wildcard_least_partial weight sample
  constructor
  · rintro (⟨a, ha, -⟩ | ⟨-, h⟩)
    · refine .inr (Classical.byContradiction fun hn => ?_)
      obtain ⟨e, he⟩ := h2.2 fun b hb w hw => Classical.byContradiction fun hlt => hn ⟨b, hb, w, hw, by omega⟩
      rw [ha] at he; cases he
    · exact .inl h
  · rintro (h | ⟨b, hb, w, hw, hlt⟩)
    · exact .inr ⟨h2.2 fun b hb w hw => (by rw [h b hb] at hw; cases hw), h⟩
    · cases hr : wildcard weight sample with
      | ok a => exact .inl ⟨a, rfl, h1 a hr⟩
      | error e => have := h2.1 ⟨e, hr⟩ b hb w hw; omega

/-- Two candidates, one with the largest load: right. Alone, this one is not found. -/
example : let big : Addr := ⟨"x", "t", "a", "10.0.0.1", 0⟩
    let small : Addr := ⟨"y", "t", "b", "10.0.0.2", 0⟩
    let weight := fun k : String => if k = "a" then some ((2 : Int) ^ 63 - 1) else some 3
    LeastOrNone weight [big, small] (wildcard weight [big, small]) ∧ ¬ LeastOrNone weight [big] (wildcard weight [big]) := by
  simp [C35_exact]

end Braid.AddressBook
