import Verif.Names.Spec

/-
Property C77: short names of functions and files.
-/
namespace Braid.Names

theorem funcLoop_spec (name : Bytes) (i : Nat) (hi : i ≤ name.length) (hs : slash ∉ name.drop i) (hd : dot ∉ name.drop i) :
    ShortFunc name (funcLoop name i) := by
  induction i with
  | zero =>
    simp only [List.drop_zero] at hs hd
    exact ⟨name, .inl ⟨hs, rfl⟩, .inr ⟨hd, rfl⟩⟩
  | succ i ih =>
    have hlt : i < name.length := hi
    have hdr : name.drop i = name[i] :: name.drop (i + 1) := List.drop_eq_getElem_cons hlt
    simp only [funcLoop, List.getElem?_eq_getElem hlt, Option.some.injEq]
    have hsp : name = name.take i ++ name[i] :: name.drop (i + 1) := by rw [← hdr, List.take_append_drop]
    split
    · rename_i h1
      refine ⟨name.drop (i + 1), .inr ⟨name.take i, ?_, hs⟩, .inr ⟨hd, rfl⟩⟩
      rw [← h1]; exact hsp
    · rename_i h1
      split
      · rename_i h2
        -- the last component: after the last slash of the part before
        by_cases hsl : slash ∈ name.take i
        · obtain ⟨a, b, hab, hb⟩ : ∃ a b, name.take i = a ++ slash :: b ∧ slash ∉ b := by
            clear hdr hsp ih
            generalize name.take i = l at hsl
            induction l with
            | nil => cases hsl
            | cons x l ih =>
              by_cases hl : slash ∈ l
              · obtain ⟨a, b, h, hb⟩ := ih hl
                exact ⟨x :: a, b, by rw [h]; rfl, hb⟩
              · rcases List.mem_cons.1 hsl with rfl | h
                · exact ⟨[], l, rfl, hl⟩
                · exact absurd h hl
          refine ⟨b ++ dot :: name.drop (i + 1), .inr ⟨a, ?_, ?_⟩, .inl ⟨b, rfl, hd⟩⟩
          · have h3 : name.take i ++ name[i] :: name.drop (i + 1) = a ++ slash :: (b ++ dot :: name.drop (i + 1)) := by
              rw [hab, h2]; simp
            rw [← h3]; exact hsp
          · simp only [List.mem_append, List.mem_cons, not_or]
            exact ⟨hb, by decide, hs⟩
        · refine ⟨name, .inl ⟨?_, rfl⟩, .inl ⟨name.take i, by rw [← h2]; exact hsp, hd⟩⟩
          rw [hsp]
          simp only [List.mem_append, List.mem_cons, not_or]
          exact ⟨hsl, fun h => h1 h.symm, hs⟩
      · rename_i h2
        refine ih (Nat.le_of_lt hlt) ?_ ?_
        · rw [hdr]
          simp only [List.mem_cons, not_or]
          exact ⟨fun h => h1 h.symm, hs⟩
        · rw [hdr]
          simp only [List.mem_cons, not_or]
          exact ⟨fun h => h2 h.symm, hd⟩

/-- **C77**, functions: for every name. -/
theorem C77_funcShortName (name : Bytes) : ShortFunc name (funcShortName name) :=
  funcLoop_spec name name.length (Nat.le_refl _) (by simp) (by simp)

theorem fileLoop_spec (file : Bytes) (i : Nat) (hi : i ≤ file.length) (hs : slash ∉ file.drop i) :
    AfterLast slash file (fileLoop file i) ∨ (fileLoop file i = file ∧ slash ∉ file.drop 1) := by
  induction i with
  | zero =>
    refine .inr ⟨rfl, fun h => hs ?_⟩
    simp only [List.drop_zero]
    exact List.mem_of_mem_drop h
  | succ i ih =>
    cases i with
    | zero => exact .inr ⟨rfl, hs⟩
    | succ i =>
      have hlt : i + 1 < file.length := hi
      have hdr : file.drop (i + 1) = file[i + 1] :: file.drop (i + 2) := List.drop_eq_getElem_cons hlt
      simp only [fileLoop, List.getElem?_eq_getElem hlt, Option.some.injEq]
      split
      · rename_i h
        refine .inl ⟨file.take (i + 1), ?_, hs⟩
        rw [← h, ← hdr, List.take_append_drop]
      · rename_i h
        refine ih (Nat.le_of_lt hlt) ?_
        rw [hdr]
        simp only [List.mem_cons, not_or]
        exact ⟨fun h' => h h'.symm, hs⟩

/-- **C77**, files, the part that holds: for every path whose only slash is not its first character. What is missing:
files in the root directory. -/
theorem C77_shortFile_partial (file : Bytes) (h : slash ∈ file.drop 1 ∨ slash ∉ file) : LastComponent file (shortFile file) := by
  rcases fileLoop_spec file file.length (Nat.le_refl _) (by simp) with h1 | ⟨h1, h2⟩
  · exact .inr h1
  · rcases h with h | h
    · exact absurd h h2
    · exact .inl ⟨h, h1⟩

/-- **C77** is violated by every file in the root directory: its slash remains. -/
theorem C77_root_refuted (name : Bytes) (h : slash ∉ name) : shortFile (slash :: name) = slash :: name ∧
    ¬ LastComponent (slash :: name) (shortFile (slash :: name)) := by
  have h0 : shortFile (slash :: name) = slash :: name := by
    rcases fileLoop_spec (slash :: name) (slash :: name).length (Nat.le_refl _) (by simp) with ⟨a, h1, h2⟩ | ⟨h1, -⟩
    · -- the first slash would be the last one
      exfalso
      have hd : ∀ i, i ≤ (slash :: name).length → fileLoop (slash :: name) i = slash :: name := by
        intro i
        induction i with
        | zero => intro _; rfl
        | succ i ih =>
          intro hi
          cases i with
          | zero => rfl
          | succ i =>
            have hlt : i + 1 < (slash :: name).length := hi
            simp only [fileLoop, List.getElem?_eq_getElem hlt, Option.some.injEq]
            rw [if_neg, ih (Nat.le_of_lt hlt)]
            intro he
            apply h
            simp only [List.getElem_cons_succ] at he
            rw [← he]
            exact List.getElem_mem _
      rw [hd _ (Nat.le_refl _)] at h2
      exact h2 List.mem_cons_self
    · exact h1
  refine ⟨h0, ?_⟩
  rw [h0]
  rintro (⟨h1, -⟩ | ⟨a, -, h2⟩)
  · exact h1 List.mem_cons_self
  · exact h2 List.mem_cons_self

/-- A method in a package with dots in its path, and a file. -/
example : funcShortName "github.com/pojol/braid/core.(*Node).Init".toUTF8.data.toList = "Init".toUTF8.data.toList ∧
    shortFile "/src/core/node.go".toUTF8.data.toList = "node.go".toUTF8.data.toList := by decide +kernel

/-- A generic function loses its name, since the last dot is in its type arguments. -/
example : funcShortName "main.Max[...]".toUTF8.data.toList = "]".toUTF8.data.toList := by decide +kernel

end Braid.Names
