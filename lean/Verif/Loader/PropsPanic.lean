import Verif.Loader.Props

/-
Property C84: exactly when `AssignToNode` panics.
-/
namespace Braid.Loader

/-- A type has a constructor iff something is filed under it. -/
theorem get_none_iff (keys : List (String × Nat)) (ty : String) : get keys ty = none ↔ ∀ x ∈ keys, x.1 ≠ ty := by
  simp [get]

/-- **C84**, exactly when `AssignToNode` panics, for any factory: one of the constructors that are not dynamic has a name under which
nothing is filed. This depends neither on the order in which the map is read nor on what registrations return. -/
theorem C84_panic_exact (keys : List (String × Nat)) (h : Heap) (outcome : String → String → Bool) (node : String)
    (order : List Nat) (hp : order.Perm (keys.map (·.2))) :
    assign keys outcome node order h = none ↔
      ∃ x ∈ keys, (h x.2).dynamic = false ∧ ∀ y ∈ keys, y.1 ≠ (h x.2).name := by
  have key : ∀ (order : List Nat) (g : Heap), same h g → (assign keys outcome node order g = none ↔
      ∃ a ∈ order, (h a).dynamic = false ∧ ∀ y ∈ keys, y.1 ≠ (h a).name) := by
    intro order
    induction order with
    | nil => intro g _; simp [assign]
    | cons a l ih =>
      intro g hg
      obtain ⟨g1, g2, -⟩ := hg a
      simp only [List.mem_cons, exists_eq_or_imp]
      simp only [assign, g1, g2]
      cases hd : (h a).dynamic with
      | true => simpa using ih g hg
      | false =>
        simp only [Bool.false_eq_true, if_false, true_and]
        cases hn : get keys (h a).name with
        | none => simp only [true_iff]; exact .inl ((get_none_iff _ _).1 hn)
        | some b =>
          have hno : ¬ ∀ y ∈ keys, y.1 ≠ (h a).name := by
            rw [← get_none_iff, hn]; simp
          have hi := ih _ (same_trans hg (same_fill g a))
          rw [g1] at hi
          simp only [hno, false_or]
          rw [← hi]
          split <;> simp_all
  rw [key order h fun _ => ⟨rfl, rfl, rfl⟩]
  constructor
  · rintro ⟨a, ha, h1⟩
    obtain ⟨x, hx, rfl⟩ := List.mem_map.1 (hp.subset ha)
    exact ⟨x, hx, h1⟩
  · rintro ⟨x, hx, h1⟩
    exact ⟨x.2, hp.symm.subset (List.mem_map.2 ⟨x, hx, rfl⟩), h1⟩

/-- Two constructors filed under each other's names: no panic. One filed under another name: a panic, unless it is dynamic. -/
example : let h : Heap := fun i => if i = 0 then ⟨"a", "", false⟩ else ⟨"b", "", false⟩
    assign [("b", 0), ("a", 1)] (fun _ _ => true) "n" [1, 0] h ≠ none ∧
    assign [("c", 0), ("b", 1)] (fun _ _ => true) "n" [1, 0] h = none := by
  intro h
  refine ⟨fun e => ?_, (C84_panic_exact _ _ _ _ _ (List.Perm.swap _ _ _)).2 ⟨("c", 0), by simp, rfl, by decide⟩⟩
  obtain ⟨x, hx, -, h2⟩ := (C84_panic_exact _ _ _ _ _ (List.Perm.swap _ _ _)).1 e
  revert x
  decide

end Braid.Loader
