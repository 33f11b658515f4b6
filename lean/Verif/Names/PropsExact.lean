import Verif.Names.Props

/-
Property C77: exactly for which paths `shortFile` gives the last component.
-/
namespace Braid.Names

/-- **C77**, files, exactly: the result is the last component iff the path is not that of a file in the root directory. -/
theorem C77_exact (file : Bytes) :
    LastComponent file (shortFile file) ↔ ¬ ∃ name, slash ∉ name ∧ file = slash :: name := by
  constructor
  · rintro h ⟨name, hn, rfl⟩
    exact (C77_root_refuted name hn).2 h
  · intro h
    apply C77_shortFile_partial
    cases file with
    | nil => right; simp
    | cons c rest =>
      by_cases hr : slash ∈ rest
      · left; simpa using hr
      · right
        intro hm
        rcases List.mem_cons.1 hm with rfl | hm
        · exact h ⟨rest, hr, rfl⟩
        · exact hr hm

/-- A path on each side. -/
example : LastComponent "/src/core/node.go".toUTF8.data.toList (shortFile "/src/core/node.go".toUTF8.data.toList) ∧
    ∃ name, slash ∉ name ∧ "/node.go".toUTF8.data.toList = slash :: name :=
  ⟨C77_shortFile_partial _ (by decide), "node.go".toUTF8.data.toList, by decide, by decide⟩

end Braid.Names
