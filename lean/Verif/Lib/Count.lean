import Verif.Lib.Lts

/-
Counting the goroutines (cells of a table) that are in a given situation.
-/
namespace Braid

/-- Number of `i < n` with `p (f i)`. -/
def cnt {β : Type} (f : Nat → β) (n : Nat) (p : β → Bool) : Nat := (List.range n).countP fun i => p (f i)

theorem cnt_zero {β : Type} (f : Nat → β) (p : β → Bool) : cnt f 0 p = 0 := by simp [cnt]

theorem cnt_succ {β : Type} (f : Nat → β) (n : Nat) (p : β → Bool) :
    cnt f (n + 1) p = cnt f n p + if p (f n) then 1 else 0 := by
  simp [cnt, List.range_succ, List.countP_append, List.countP_cons]

theorem cnt_upd_ge {β : Type} (f : Nat → β) (n i : Nat) (v : β) (p : β → Bool) (h : n ≤ i) :
    cnt (upd f i v) n p = cnt f n p := by
  induction n with
  | zero => simp [cnt_zero]
  | succ n ih =>
    rw [cnt_succ, cnt_succ, ih (by omega), upd_of_ne _ _ (by omega)]

theorem cnt_upd {β : Type} (f : Nat → β) (n i : Nat) (v : β) (p : β → Bool) (h : i < n) :
    cnt (upd f i v) n p + (if p (f i) then 1 else 0) = cnt f n p + if p v then 1 else 0 := by
  induction n with
  | zero => omega
  | succ n ih =>
    rw [cnt_succ, cnt_succ]
    by_cases hi : i = n
    · subst hi
      rw [cnt_upd_ge _ _ _ _ _ (Nat.le_refl _), upd_same]; omega
    · rw [upd_of_ne _ _ (Ne.symm hi)]
      have := ih (by omega)
      omega

theorem cnt_new {β : Type} (f : Nat → β) (n : Nat) (v : β) (p : β → Bool) :
    cnt (upd f n v) (n + 1) p = cnt f n p + if p v then 1 else 0 := by
  rw [cnt_succ, cnt_upd_ge _ _ _ _ _ (Nat.le_refl _), upd_same]

theorem cnt_le {β : Type} (f : Nat → β) (n : Nat) (p : β → Bool) : cnt f n p ≤ n := by
  induction n with
  | zero => simp [cnt_zero]
  | succ n ih => rw [cnt_succ]; split <;> omega

/-- Two disjoint situations together. -/
theorem cnt_add_le {β : Type} (f : Nat → β) (n : Nat) (p q : β → Bool) (h : ∀ b, ¬ (p b = true ∧ q b = true)) :
    cnt f n p + cnt f n q ≤ n := by
  induction n with
  | zero => simp [cnt_zero]
  | succ n ih =>
    rw [cnt_succ, cnt_succ]
    have := h (f n)
    by_cases h1 : p (f n) = true <;> by_cases h2 : q (f n) = true <;> simp_all <;> omega

theorem cnt_pos {β : Type} {f : Nat → β} {n : Nat} {p : β → Bool} {i : Nat} (h : i < n) (hp : p (f i) = true) :
    0 < cnt f n p := by
  unfold cnt
  rw [List.countP_pos_iff]
  exact ⟨i, List.mem_range.2 h, hp⟩

/-- Where an event lies in a history that was prolonged. -/
theorem append_eq_mid {α : Type} {h evs h1 h2 : List α} {x : α} (he : h ++ evs = h1 ++ x :: h2) :
    (∃ t, h = h1 ++ x :: t ∧ h2 = t ++ evs) ∨ (∃ t, evs = t ++ x :: h2 ∧ h1 = h ++ t) := by
  rw [List.append_eq_append_iff] at he
  rcases he with ⟨t, h3, h4⟩ | ⟨t, h3, h4⟩
  · exact Or.inr ⟨t, h4, h3⟩
  · cases t with
    | nil => right; exact ⟨[], by simpa using h4.symm, by simpa using h3.symm⟩
    | cons y t =>
      simp only [List.cons_append, List.cons.injEq] at h4
      left; exact ⟨t, by rw [h3, ← h4.1], h4.2⟩

end Braid
