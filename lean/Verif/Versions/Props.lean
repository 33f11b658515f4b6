import Verif.Versions.Model
import Mathlib.Data.List.Sort
/-
C57: the next version is the smallest newer version.
-/
namespace Braid.Versions

/-- Specification: `n` is the version after `v`: the smallest registered one that is greater, or `v` itself. -/
def IsNext (l : List Strategy) (v n : Int) : Prop :=
  (n ∈ l.map (·.version) ∧ v < n ∧ ∀ m ∈ l.map (·.version), v < m → n ≤ m) ∨
  (n = v ∧ ∀ m ∈ l.map (·.version), m ≤ v)

/-- Specification: the strategies were registered in the order of their versions. -/
def InOrder (l : List Strategy) : Prop := (l.map (·.version)).Pairwise (· ≤ ·)

theorem next_cases (l : List Strategy) (v : Int) :
    (getNextVersion l v ∈ l.map (·.version) ∧ v < getNextVersion l v) ∨
      (getNextVersion l v = v ∧ ∀ m ∈ l.map (·.version), m ≤ v) := by
  induction l with
  | nil => right; exact ⟨rfl, by simp⟩
  | cons s l ih =>
    simp only [getNextVersion]
    split
    · rename_i h; left; exact ⟨by simp, h⟩
    · rename_i h
      rcases ih with ⟨h1, h2⟩ | ⟨h1, h2⟩
      · left; exact ⟨List.mem_cons_of_mem _ h1, h2⟩
      · right
        refine ⟨h1, ?_⟩
        intro m hm
        rcases List.mem_cons.1 hm with hm | hm
        · simp only at hm; omega
        · exact h2 m hm

/-- C57, the part that holds if versions are registered in ascending order: the smallest newer version. Full claim:
for every order; refuted below. -/
theorem C57_next_partial {l : List Strategy} (ho : InOrder l) (v : Int) : IsNext l v (getNextVersion l v) := by
  induction l with
  | nil => exact Or.inr ⟨rfl, by simp⟩
  | cons s l ih =>
    rcases next_cases (s :: l) v with ⟨h1, h2⟩ | h
    · refine Or.inl ⟨h1, h2, ?_⟩
      unfold InOrder at ho
      rw [List.map_cons, List.pairwise_cons] at ho
      simp only [getNextVersion] at h2 ⊢
      split at h2
      · rename_i hs
        rw [if_pos hs]
        intro m hm _
        rcases List.mem_cons.1 hm with rfl | hm
        · exact Int.le_refl _
        · exact ho.1 m hm
      · rename_i hs
        rw [if_neg hs]
        intro m hm hv
        rcases List.mem_cons.1 hm with hm | hm
        · simp only at hm; omega
        · rcases ih ho.2 with h | h
          · exact h.2.2 m hm hv
          · have := h.2 m hm; omega
    · exact Or.inr h

/-- C57 is violated if versions are registered in another order: with 3 registered before 2, the version after 1 is
3, and version 2 is never visited. -/
theorem C57_order_refuted : ¬ ∀ (l : List Strategy) (v : Int), IsNext l v (getNextVersion l v) := by
  intro h
  have := h [⟨3, 0⟩, ⟨2, 1⟩] 1
  unfold IsNext at this
  simp [getNextVersion] at this

theorem C57_skips_refuted : ∃ (l : List Strategy), upgrade l 10 1 = some [3] ∧ ∃ s, getVerStrategy l 2 = some s :=
  ⟨[⟨3, 0⟩, ⟨2, 1⟩], by decide, ⟨2, 1⟩, by decide⟩

/-- C57, in every order: the result is registered and newer, or there is none that is newer and it is `v`. -/
theorem C57_newer (l : List Strategy) (v : Int) :
    (getNextVersion l v ∈ l.map (·.version) ∧ v < getNextVersion l v) ∨
      (getNextVersion l v = v ∧ ∀ m ∈ l.map (·.version), m ≤ v) := next_cases l v

/-- The number of registered versions that are newer. -/
def newer (l : List Strategy) (v : Int) : Nat := (l.filter (fun s => decide (v < s.version))).length

theorem newer_lt {l : List Strategy} {v n : Int} (h1 : v < n) (h2 : n ∈ l.map (·.version)) : newer l n < newer l v := by
  unfold newer
  have hsub : ∀ l : List Strategy, (l.filter (fun s => decide (n < s.version))).length ≤
      (l.filter (fun s => decide (v < s.version))).length := by
    intro l
    induction l with
    | nil => simp
    | cons s l ih =>
      simp only [List.filter_cons]
      by_cases h : n < s.version
      · rw [if_pos (by simpa using h), if_pos (by simp; omega)]; simpa using ih
      · rw [if_neg (by simpa using h)]
        split
        · simp only [List.length_cons]; omega
        · exact ih
  induction l with
  | nil => simp at h2
  | cons s l ih =>
    rw [List.map_cons, List.mem_cons] at h2
    simp only [List.filter_cons]
    by_cases hs : s.version = n
    · rw [if_neg (by simp; omega), if_pos (by simp; omega)]
      have := hsub l
      simp only [List.length_cons]; omega
    · have := ih (h2.resolve_left (fun h => hs h.symm))
      by_cases h : n < s.version
      · rw [if_pos (by simpa using h), if_pos (by simp; omega)]; simpa using this
      · rw [if_neg (by simpa using h)]
        split
        · simp only [List.length_cons]; omega
        · exact this

/-- C57, in every order: iterating stops, after at most as many steps as there are newer versions; the versions
visited are registered and strictly ascending, and nothing registered is newer than the last. -/
theorem C57_iterate (l : List Strategy) : ∀ (fuel : Nat) (v : Int), newer l v < fuel → ∃ vs, upgrade l fuel v = some vs ∧
    (v :: vs).Pairwise (· < ·) ∧ (∀ n ∈ vs, n ∈ l.map (·.version)) ∧
    ∀ m ∈ l.map (·.version), m ≤ (v :: vs).getLast (by simp) := by
  intro fuel
  induction fuel with
  | zero => intro v h; omega
  | succ fuel ih =>
    intro v hv
    simp only [upgrade]
    rcases next_cases l v with ⟨h1, h2⟩ | ⟨h1, h2⟩
    · rw [if_neg (by omega)]
      obtain ⟨vs, e, hp, hr, hl⟩ := ih (getNextVersion l v) (by have := newer_lt h2 h1; omega)
      refine ⟨getNextVersion l v :: vs, by rw [e]; rfl, ?_, ?_, ?_⟩
      · rw [List.pairwise_cons]
        refine ⟨?_, hp⟩
        intro n hn
        rcases List.mem_cons.1 hn with rfl | hn
        · exact h2
        · exact Int.lt_trans h2 ((List.pairwise_cons.1 hp).1 n hn)
      · intro n hn
        rcases List.mem_cons.1 hn with rfl | hn
        · exact h1
        · exact hr n hn
      · intro m hm
        rw [List.getLast_cons (by simp)]
        exact hl m hm
    · rw [if_pos h1]
      exact ⟨[], rfl, by simp, by simp, by simpa using h2⟩

/-- C57, the part that holds if versions are registered in ascending order: iterating visits every newer version. Full
claim: for every order; refuted above. -/
theorem C57_iterate_all_partial {l : List Strategy} (ho : InOrder l) : ∀ (fuel : Nat) (v : Int) (vs : List Int),
    upgrade l fuel v = some vs → ∀ n, n ∈ vs ↔ (n ∈ l.map (·.version) ∧ v < n) := by
  intro fuel
  induction fuel with
  | zero => intro v vs h; cases h
  | succ fuel ih =>
    intro v vs h n
    simp only [upgrade] at h
    rcases C57_next_partial ho v with ⟨h1, h2, h3⟩ | ⟨h1, h2⟩
    · rw [if_neg (by omega), Option.map_eq_some_iff] at h
      obtain ⟨vs', e, rfl⟩ := h
      rw [List.mem_cons, ih _ _ e]
      constructor
      · rintro (rfl | ⟨h4, h5⟩)
        · exact ⟨h1, h2⟩
        · exact ⟨h4, by omega⟩
      · rintro ⟨h4, h5⟩
        have := h3 n h4 h5
        by_cases he : n = getNextVersion l v
        · exact Or.inl he
        · exact Or.inr ⟨h4, by omega⟩
    · rw [if_pos h1] at h
      cases h
      simp only [List.not_mem_nil, false_iff]
      rintro ⟨h4, h5⟩
      have := h2 n h4
      omega

/-- `GetVerStrategy` finds the first strategy registered with that version, and an error only if there is none. -/
theorem C57_strategy (l : List Strategy) (v : Int) :
    (∃ p s q, l = p ++ s :: q ∧ s.version = v ∧ (∀ t ∈ p, t.version ≠ v) ∧ getVerStrategy l v = some s) ∨
      ((∀ t ∈ l, t.version ≠ v) ∧ getVerStrategy l v = none) := by
  induction l with
  | nil => exact Or.inr ⟨by simp, rfl⟩
  | cons s l ih =>
    simp only [getVerStrategy]
    by_cases h : s.version = v
    · exact Or.inl ⟨[], s, l, rfl, h, by simp, by rw [if_pos h]⟩
    · rw [if_neg h]
      rcases ih with ⟨p, t, q, e, h1, h2, h3⟩ | ⟨h1, h2⟩
      · refine Or.inl ⟨s :: p, t, q, by rw [e]; rfl, h1, ?_, h3⟩
        intro t' ht
        rcases List.mem_cons.1 ht with rfl | ht
        · exact h
        · exact h2 t' ht
      · refine Or.inr ⟨?_, h2⟩
        intro t' ht
        rcases List.mem_cons.1 ht with rfl | ht
        · exact h
        · exact h1 t' ht

/-- The example: four strategies registered in order, one version twice. -/
example : InOrder [⟨1, 0⟩, ⟨3, 1⟩, ⟨3, 2⟩, ⟨8, 3⟩] ∧ upgrade [⟨1, 0⟩, ⟨3, 1⟩, ⟨3, 2⟩, ⟨8, 3⟩] 5 0 = some [1, 3, 8] := by
  refine ⟨by unfold InOrder; decide, by decide⟩

theorem next_append (p r : List Strategy) (v : Int) :
    ((∀ t ∈ p, t.version ≤ v) ∧ getNextVersion (p ++ r) v = getNextVersion r v) ∨
      ∃ t ∈ p, getNextVersion (p ++ r) v = t.version := by
  induction p with
  | nil => exact Or.inl ⟨by simp, rfl⟩
  | cons s p ih =>
    simp only [List.cons_append, getNextVersion]
    split
    · exact Or.inr ⟨s, by simp, rfl⟩
    · rename_i h
      rcases ih with ⟨h1, h2⟩ | ⟨t, ht, h2⟩
      · refine Or.inl ⟨?_, h2⟩
        intro t ht
        rcases List.mem_cons.1 ht with rfl | ht
        · omega
        · exact h1 t ht
      · exact Or.inr ⟨t, List.mem_cons_of_mem _ ht, h2⟩

/-- C57, exactly: `GetNextVersion` returns the smallest newer version for every argument iff each strategy was registered
when its version was there already or was greater than all that were there. -/
theorem C57_next_iff (l : List Strategy) :
    (∀ v, IsNext l v (getNextVersion l v)) ↔
      ∀ p s q, l = p ++ s :: q → (∃ t ∈ p, t.version = s.version) ∨ ∀ t ∈ p, t.version < s.version := by
  constructor
  · rintro h p s q rfl
    have hs : s.version ∈ (p ++ s :: q).map (·.version) := List.mem_map.2 ⟨s, by simp, rfl⟩
    rcases h (s.version - 1) with ⟨-, h2, h3⟩ | ⟨-, h2⟩
    · have h4 := h3 _ hs (by omega)
      rcases next_append p (s :: q) (s.version - 1) with ⟨h5, -⟩ | ⟨t, ht, h5⟩
      · right
        intro t ht
        have := h5 t ht
        omega
      · exact Or.inl ⟨t, ht, by omega⟩
    · have := h2 _ hs
      omega
  · intro h v
    rcases next_cases l v with ⟨h1, h2⟩ | h1
    · refine Or.inl ⟨h1, h2, ?_⟩
      intro m hm hv
      rcases C57_strategy l m with ⟨p, s, q, rfl, rfl, h3, -⟩ | ⟨h3, -⟩
      · have h4 : ∀ t ∈ p, t.version < s.version := (h p s q rfl).resolve_left (by
          rintro ⟨t, ht, e⟩
          exact h3 t ht e)
        rcases next_append p (s :: q) v with ⟨-, h5⟩ | ⟨t, ht, h5⟩
        · rw [h5]
          simp only [getNextVersion]
          rw [if_pos (by omega)]
        · rw [h5]
          exact Int.le_of_lt (h4 t ht)
      · obtain ⟨t, ht, rfl⟩ := List.mem_map.1 hm
        exact absurd rfl (h3 t ht)
    · exact Or.inr h1

/-- Beyond ascending order: 3, 8, 3 again, 9. -/
example : (∀ v, IsNext [⟨3, 0⟩, ⟨8, 1⟩, ⟨3, 2⟩, ⟨9, 3⟩] v (getNextVersion [⟨3, 0⟩, ⟨8, 1⟩, ⟨3, 2⟩, ⟨9, 3⟩] v)) := by
  rw [C57_next_iff]
  intro p s q h
  rcases p with _ | ⟨a, _ | ⟨b, _ | ⟨c, _ | ⟨d, p⟩⟩⟩⟩ <;> simp at h
  · simp
  · obtain ⟨rfl, rfl, -⟩ := h; simp
  · obtain ⟨rfl, rfl, rfl, -⟩ := h; simp
  · obtain ⟨rfl, rfl, rfl, rfl, -⟩ := h; simp

end Braid.Versions
