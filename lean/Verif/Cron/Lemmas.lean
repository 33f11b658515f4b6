import Verif.Cron.Model
import Verif.Cron.Spec
/-
Lemmas about the loops of the cron parser and about numerals.
-/
namespace Braid.Cron
open Spec

theorem add64_small {a b : Int} (h1 : -2 ^ 63 ≤ a + b) (h2 : a + b < 2 ^ 63) : add64 a b = a + b := by
  unfold add64; omega

/-- A loop with a positive step ends, and adds the values of the progression. -/
theorem loop_spec {f last : Int} (hf : 1 ≤ f) (hl : last + f < 2 ^ 63) :
    ∀ (n : Nat) (i : Int) (acc : List Int), -2 ^ 63 ≤ i → last < i + n →
      ∃ m, (∀ fuel, n < fuel → loop f last fuel i acc = some m) ∧
        ∀ x, x ∈ m ↔ x ∈ acc ∨ ∃ k : Nat, x = i + k * f ∧ x ≤ last := by
  intro n
  induction n with
  | zero =>
    intro i acc _ hi
    refine ⟨acc, ?_, ?_⟩
    · intro fuel hfuel
      cases fuel with
      | zero => omega
      | succ fuel => simp only [loop]; rw [if_neg (by omega)]
    · intro x
      constructor
      · exact Or.inl
      · rintro (h | ⟨k, h1, h2⟩)
        · exact h
        · have : (0 : Int) ≤ k * f := Int.mul_nonneg (by omega) (by omega)
          omega
  | succ n ih =>
    intro i acc hlo hi
    by_cases hle : i ≤ last
    · obtain ⟨m, h1, h2⟩ := ih (i + f) (i :: acc) (by omega) (by omega)
      refine ⟨m, ?_, ?_⟩
      · intro fuel hfuel
        cases fuel with
        | zero => omega
        | succ fuel =>
          simp only [loop]
          rw [if_pos hle, add64_small (by omega) (by omega)]
          exact h1 fuel (by omega)
      · intro x
        rw [h2, List.mem_cons]
        constructor
        · rintro ((h | h) | ⟨k, h, h'⟩)
          · exact Or.inr ⟨0, by simp [h], by omega⟩
          · exact Or.inl h
          · exact Or.inr ⟨k + 1, by rw [h]; push_cast; rw [Int.add_mul]; omega, h'⟩
        · rintro (h | ⟨k, h, h'⟩)
          · exact Or.inl (Or.inr h)
          · cases k with
            | zero => left; left; simpa using h
            | succ k => exact Or.inr ⟨k, by rw [h]; push_cast; rw [Int.add_mul]; omega, h'⟩
    · refine ⟨acc, ?_, ?_⟩
      · intro fuel hfuel
        cases fuel with
        | zero => omega
        | succ fuel => simp only [loop]; rw [if_neg hle]
      · intro x
        constructor
        · exact Or.inl
        · rintro (h | ⟨k, h1, h2⟩)
          · exact h
          · have : (0 : Int) ≤ k * f := Int.mul_nonneg (by omega) (by omega)
            omega

/-- With step 0 the loop never ends. -/
theorem loop_zero {last : Int} : ∀ (fuel : Nat) (i : Int) (acc : List Int), -2 ^ 63 ≤ i → i < 2 ^ 63 → i ≤ last →
    loop 0 last fuel i acc = none := by
  intro fuel
  induction fuel with
  | zero => intros; rfl
  | succ fuel ih =>
    intro i acc h1 h2 h3
    simp only [loop]
    rw [if_pos h3, add64_small (by omega) (by omega)]
    exact ih _ _ (by omega) (by omega) (by omega)

/-- What is used of a numeral. -/
def isDig (c : Char) : Prop := '0' ≤ c ∧ c ≤ '9'

theorem dig_cases : ∀ d < 10, isDig (Char.ofNat (48 + d)) ∧ digit (Char.ofNat (48 + d)) = d := by
  unfold isDig; decide

theorem isDig_ne {c : Char} (h : isDig c) : c ≠ '/' ∧ c ≠ '-' ∧ c ≠ ',' ∧ c ≠ '*' ∧ c ≠ '+' := by
  refine ⟨?_, ?_, ?_, ?_, ?_⟩ <;> (rintro rfl; revert h; unfold isDig; decide)

theorem isDig_size {c : Char} (h : isDig c) : c.utf8Size = 1 := by
  have h2 : c.val ≤ '9'.val := h.2
  rw [Char.utf8Size_eq_one_iff]
  exact UInt32.le_trans h2 (by decide)

theorem numeral_facts {l : List Char} {n : Nat} (h : Numeral l n) :
    l ≠ [] ∧ (∀ c ∈ l, isDig c) ∧ l.foldl (fun a c => 10 * a + digit c) 0 = n := by
  induction h with
  | one d hd =>
    have := dig_cases d hd
    simp [this.1, this.2]
  | more d _ hd ih =>
    have := dig_cases d hd
    refine ⟨by simp, ?_, ?_⟩
    · intro c hc
      rw [List.mem_append, List.mem_singleton] at hc
      rcases hc with hc | rfl
      · exact ih.2.1 c hc
      · exact this.1
    · rw [List.foldl_append, ih.2.2]; simp [this.2]

theorem unsigned_numeral {l : List Char} {n : Nat} (h : Numeral l n) : unsigned l = some n := by
  obtain ⟨h1, h2, h3⟩ := numeral_facts h
  unfold unsigned
  rw [if_pos, h3]
  refine ⟨h1, ?_⟩
  rw [List.all_eq_true]
  intro c hc
  exact decide_eq_true (h2 c hc)

theorem atoi_numeral {l : List Char} {n : Nat} (h : Numeral l n) (hn : n < 2 ^ 63) : atoi l = some (n : Int) := by
  obtain ⟨h1, h2, _⟩ := numeral_facts h
  have hu := unsigned_numeral h
  cases l with
  | nil => exact absurd rfl h1
  | cons c l =>
    have hc := isDig_ne (h2 c List.mem_cons_self)
    unfold atoi
    split
    · rename_i heq; cases heq; exact absurd rfl hc.2.1
    · rename_i heq; cases heq; exact absurd rfl hc.2.2.2.2
    · rw [hu]; simp only []; rw [if_pos hn]

theorem index_append {c : Char} {l r : List Char} (h : ∀ x ∈ l, x ≠ c ∧ x.utf8Size = 1) :
    index c (l ++ c :: r) = l.length := by
  induction l with
  | nil => simp [index]
  | cons x l ih =>
    have hx := h x List.mem_cons_self
    simp only [List.cons_append, index]
    rw [if_neg hx.1, hx.2, ih (fun y hy => h y (List.mem_cons_of_mem _ hy)), List.length_cons]
    omega

theorem subTo_append (l r : List Char) (c : Char) : subTo (l ++ c :: r) l.length = l := by
  unfold subTo
  rw [if_neg (by simp), if_neg (by simp), List.take_left']
  rfl

theorem subFrom_append (l r : List Char) (c : Char) : subFrom (l ++ c :: r) (l.length + 1) = r := by
  unfold subFrom
  have e : l ++ c :: r = (l ++ [c]) ++ r := by simp
  split
  · rename_i h
    rw [List.length_append, List.length_cons] at h
    have : r = [] := List.eq_nil_of_length_eq_zero (by omega)
    rw [this]
  · rw [e, List.drop_left']; simp

theorem split_nocomma {l : List Char} (h : ',' ∉ l) : split l = [l] := by
  induction l with
  | nil => rfl
  | cons c l ih =>
    rw [List.mem_cons, not_or] at h
    simp only [split]
    rw [if_neg (fun hc => h.1 hc.symm), ih h.2]

theorem split_append {l r : List Char} (h : ',' ∉ l) : split (l ++ ',' :: r) = l :: split r := by
  induction l with
  | nil => simp [split]
  | cons c l ih =>
    rw [List.mem_cons, not_or] at h
    simp only [List.cons_append, split]
    rw [if_neg (fun hc => h.1 hc.symm), ih h.2]

end Braid.Cron
