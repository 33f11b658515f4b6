import Verif.Files.Spec

/-
Properties C73 and C74: saving files, and names of files.
-/
namespace Braid.Files

/-- **C73**, `SaveFile`: the file holds what was saved, whatever it held before. -/
theorem C73_saveFile_partial (fs fs' : Fs) (p : String) (d : Bytes) (o : Out) (h : saveFile fs p d o = (fs', true)) :
    Holds fs fs' p d := by
  cases o <;> simp [saveFile] at h
  subst h
  exact ⟨by simp [readFile, put], fun q hq => by simp [readFile, put, hq]⟩

theorem overwrite_eq_iff (old new : Bytes) : overwrite old new = new ↔ old.length ≤ new.length := by
  simp [overwrite]

/-- **C73**, `WriteJSON`, the part that holds, exactly: the file holds what was written iff what it held before was not
longer. What is missing: longer contents. -/
theorem C73_writeJSON_partial (fs fs' : Fs) (p : String) (d : Bytes) (o : Out) (h : writeJSON fs p d o = (fs', true)) :
    Holds fs fs' p d ↔ ((fs p).getD []).length ≤ d.length := by
  cases o <;> simp [writeJSON] at h
  subst h
  rw [← overwrite_eq_iff]
  constructor
  · intro hh
    simpa [Holds, readFile, put] using hh.1
  · intro hh
    exact ⟨by simp [readFile, put, hh], fun q hq => by simp [readFile, put, hq]⟩

/-- **C73** is violated: writing `{}` over `{"a":1}` leaves `{}a":1}`. -/
theorem C73_refuted : ∃ fs fs' p d, writeJSON fs p d .ok = (fs', true) ∧ ¬ Holds fs fs' p d ∧
    readFile fs' p = some "{}a\":1}".toUTF8.data.toList := by
  refine ⟨fun _ => some "{\"a\":1}".toUTF8.data.toList, _, "x", "{}".toUTF8.data.toList, rfl, ?_, by decide +kernel⟩
  intro h
  have := (C73_writeJSON_partial _ _ _ _ .ok rfl).1 h
  revert this
  decide +kernel

/-- Both, over shorter contents and on a new file. -/
example : ((writeJSON (fun _ => some [1]) "x" [2, 3] .ok).1 "x" = some [2, 3]) ∧
    ((saveFile (fun _ => none) "x" [2, 3] .ok).1 "x" = some [2, 3]) := ⟨rfl, rfl⟩

theorem lastIndexFrom_spec (s : Bytes) (i : Nat) (hi : i ≤ s.length) :
    (lastIndexFrom s i = -1 ∧ dot ∉ s.take i) ∨
      ∃ a b, s.take i = a ++ dot :: b ∧ dot ∉ b ∧ lastIndexFrom s i = a.length := by
  induction i with
  | zero => exact .inl ⟨rfl, by simp⟩
  | succ i ih =>
    have hlt : i < s.length := hi
    have ht : s.take (i + 1) = s.take i ++ [s[i]] := by rw [List.take_succ_eq_append_getElem hlt]
    simp only [lastIndexFrom, List.getElem?_eq_getElem hlt, Option.some.injEq]
    split
    · rename_i he
      refine .inr ⟨s.take i, [], by rw [ht, he], by simp, ?_⟩
      rw [List.length_take, Nat.min_eq_left (Nat.le_of_lt hlt)]
    · rename_i he
      rcases ih (Nat.le_of_lt hlt) with ⟨h1, h2⟩ | ⟨a, b, h1, h2, h3⟩
      · refine .inl ⟨h1, ?_⟩
        rw [ht]
        simp only [List.mem_append, List.mem_singleton, not_or]
        exact ⟨h2, fun h => he h.symm⟩
      · refine .inr ⟨a, b ++ [s[i]], by rw [ht, h1]; simp, ?_, h3⟩
        simp only [List.mem_append, List.mem_singleton, not_or]
        exact ⟨h2, fun h => he h.symm⟩

theorem lastIndex_spec (s : Bytes) :
    (lastIndex s = -1 ∧ dot ∉ s) ∨ ∃ a b, s = a ++ dot :: b ∧ dot ∉ b ∧ lastIndex s = a.length := by
  simpa [lastIndex] using lastIndexFrom_spec s s.length (Nat.le_refl _)

/-- **C74**, extension: it is empty if there is no dot, and otherwise all from the last dot on. -/
theorem C74_ext (f : Bytes) : ExtFromDot f := by
  rcases lastIndex_spec f with ⟨h1, h2⟩ | ⟨a, b, h1, h2, h3⟩
  · refine .inl ⟨h2, ?_⟩
    unfold getFileExt
    rw [h1]
    simp
  · refine .inr ⟨a, b, h1, h2, ?_⟩
    unfold getFileExt
    rw [h3, if_neg (by rw [h1]; simp), if_neg (by omega), h1]
    simp

/-- **C74**, name and extension, the part that holds, exactly: they make up the file name iff it has a dot or is empty.
What is missing: names without a dot. -/
theorem C74_split_partial (f : Bytes) : Splits f ↔ dot ∈ f ∨ f = [] := by
  unfold Splits
  rcases lastIndex_spec f with ⟨h1, h2⟩ | ⟨a, b, h1, h2, h3⟩
  · unfold getFileExt getFileRealName
    rw [h1]
    simp only [h2, false_or]
    by_cases hf : f = []
    · simp [hf]
    · simp [hf, Ne.symm hf]
  · unfold getFileExt getFileRealName
    rw [h3, if_neg (by rw [h1]; simp), if_neg (by omega), if_neg (by rw [h1]; simp), if_neg (by omega), h1]
    simp

/-- **C74** is violated: `Makefile` has no name. -/
theorem C74_refuted : ∃ f, getFileRealName f = [] ∧ ¬ Splits f := by
  refine ⟨"Makefile".toUTF8.data.toList, by decide +kernel, ?_⟩
  rw [C74_split_partial]
  decide +kernel

/-- `a.tar.gz`. -/
example : getFileRealName "a.tar.gz".toUTF8.data.toList = "a.tar".toUTF8.data.toList ∧
    getFileExt "a.tar.gz".toUTF8.data.toList = ".gz".toUTF8.data.toList := by decide +kernel

end Braid.Files
