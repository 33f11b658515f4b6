import Verif.Lib.Lts

/-
Sums of weights over the goroutines below a bound.
-/
namespace Braid

def total (f : Nat → Nat) : Nat → Nat
  | 0 => 0
  | n + 1 => total f n + f n

theorem total_upd_ge {β : Type} (f : Nat → β) (w : β → Nat) (i : Nat) (v : β) (n : Nat) (h : n ≤ i) :
    total (fun j => w (upd f i v j)) n = total (fun j => w (f j)) n := by
  induction n with
  | zero => rfl
  | succ n ih => simp only [total]; rw [ih (by omega), upd_of_ne _ _ (by omega)]

theorem total_upd {β : Type} (f : Nat → β) (w : β → Nat) (i : Nat) (v : β) (n : Nat) (h : i < n) :
    total (fun j => w (upd f i v j)) n + w (f i) = total (fun j => w (f j)) n + w v := by
  induction n with
  | zero => omega
  | succ n ih =>
    simp only [total]
    by_cases hi : i = n
    · subst hi; rw [total_upd_ge _ _ _ _ _ (Nat.le_refl _), upd_same]; omega
    · rw [upd_of_ne _ _ (Ne.symm hi)]; have := ih (by omega); omega

theorem total_zero (n : Nat) : total (fun _ => 0) n = 0 := by
  induction n with
  | zero => rfl
  | succ n ih => simp [total, ih]

theorem total_congr {f g : Nat → Nat} {n : Nat} (h : ∀ i, i < n → f i = g i) : total f n = total g n := by
  induction n with
  | zero => rfl
  | succ n ih => simp only [total]; rw [ih (fun i hi => h i (by omega)), h n (by omega)]

end Braid
