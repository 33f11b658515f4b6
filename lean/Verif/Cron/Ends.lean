import Verif.Cron.Lemmas
/-
When the loops of the cron parser end (helper lemmas).
-/
namespace Braid.Cron

/-- The int64 that is congruent to `a`. -/
def wrap64 (a : Int) : Int := (a + 2 ^ 63) % 2 ^ 64 - 2 ^ 63

theorem loop_ends {f last : Int} : ∀ (n : Nat) (i : Int), wrap64 i = i → last < wrap64 (i + n * f) →
    ∀ fuel, n < fuel → ∀ acc, loop f last fuel i acc ≠ none := by
  intro n
  induction n with
  | zero =>
    intro i hi hl fuel hf acc
    cases fuel with
    | zero => omega
    | succ fuel =>
      simp only [loop]
      rw [if_neg]
      · simp
      · simp only [Int.natCast_zero, Int.zero_mul, Int.add_zero] at hl; omega
  | succ n ih =>
    intro i hi hl fuel hf acc
    cases fuel with
    | zero => omega
    | succ fuel =>
      simp only [loop]
      split
      · refine ih _ ?_ ?_ fuel (by omega) _
        · unfold wrap64 add64; omega
        · have e : ((n + 1 : Nat) : Int) * f = n * f + f := by push_cast; rw [Int.add_mul]; omega
          rw [e] at hl
          generalize (n : Int) * f = y at hl ⊢
          unfold wrap64 add64 at *; omega
      · simp

/-- Some multiple of every step other than 0 and -2^63 is half way round. -/
theorem half_way {f : Int} (h : f % 2 ^ 63 ≠ 0) : ∃ n : Nat, ((n : Int) * f) % 2 ^ 63 = 2 ^ 62 := by
  have key : ∀ j : Nat, (((2 ^ j : Nat) : Int) * f) % 2 ^ 63 ≠ 0 ∨ ∃ n : Nat, ((n : Int) * f) % 2 ^ 63 = 2 ^ 62 := by
    intro j
    induction j with
    | zero => left; simpa using h
    | succ j ih =>
      rcases ih with ih | ih
      · by_cases h2 : (((2 ^ (j + 1) : Nat) : Int) * f) % 2 ^ 63 = 0
        · right
          refine ⟨2 ^ j, ?_⟩
          have e : ((2 ^ (j + 1) : Nat) : Int) * f = 2 * (((2 ^ j : Nat) : Int) * f) := by
            rw [Nat.pow_succ]; push_cast; rw [Int.mul_comm _ 2, Int.mul_assoc]
          rw [e] at h2
          generalize ((2 ^ j : Nat) : Int) * f = y at *
          omega
        · exact Or.inl h2
      · exact Or.inr ih
  rcases key 63 with h1 | h1
  · exfalso; apply h1
    have : ((2 ^ 63 : Nat) : Int) = 2 ^ 63 := by decide
    rw [this]; omega
  · exact h1

theorem loop_ends' {f last i : Int} (h : f % 2 ^ 63 ≠ 0) (hi : 0 ≤ i) (hi2 : i ≤ 59) (hl : last ≤ 59) :
    ∃ N, ∀ fuel, N ≤ fuel → ∀ acc, loop f last fuel i acc ≠ none := by
  obtain ⟨n, hn⟩ := half_way h
  have hw : wrap64 i = i := by unfold wrap64; omega
  have hx : ∃ t : Nat, last < wrap64 (i + (t : Int) * ((n : Int) * f)) := by
    generalize (n : Int) * f = y at *
    by_cases h1 : last < wrap64 (i + y)
    · exact ⟨1, by simpa using h1⟩
    by_cases h2 : last < wrap64 (i + 2 * y)
    · exact ⟨2, h2⟩
    refine ⟨3, ?_⟩
    have : ((3 : Nat) : Int) = 3 := rfl
    rw [this]
    unfold wrap64 at *
    omega
  obtain ⟨t, ht⟩ := hx
  refine ⟨t * n + 1, fun fuel hf acc => loop_ends (t * n) i hw ?_ fuel (by omega) acc⟩
  rw [show ((t * n : Nat) : Int) * f = (t : Int) * ((n : Int) * f) by push_cast; rw [Int.mul_assoc]]
  exact ht

/-- With step 0 or -2^63 a loop that is entered never ends. -/
theorem loop_endless {f last : Int} (h : f = 0 ∨ f = -2 ^ 63) : ∀ (fuel : Nat) (i : Int) (acc : List Int),
    -2 ^ 63 ≤ i → i ≤ last → 0 ≤ last → last ≤ 59 → (0 ≤ i ∨ 0 ≤ i + 2 ^ 63 ∧ i + 2 ^ 63 ≤ last) →
    loop f last fuel i acc = none := by
  intro fuel
  induction fuel with
  | zero => intros; rfl
  | succ fuel ih =>
    intro i acc h1 h2 h3 h4 h5
    simp only [loop]
    rw [if_pos h2]
    apply ih
    all_goals (try exact h3)
    all_goals (try exact h4)
    all_goals rcases h with rfl | rfl <;> unfold add64 <;> omega

/-- The item is a range in bounds: the loops are entered. -/
def InRange (k : Kind) (v : List Char) : Prop :=
  '-' ∈ v ∧ ∃ first last, atoi (subTo v (index '-' v)) = some first ∧ atoi (subFrom v (index '-' v + 1)) = some last ∧
    k.min ≤ first ∧ first ≤ k.max ∧ k.min ≤ last ∧ last ≤ k.max

theorem kind_lo (k : Kind) : 0 ≤ k.min := by cases k <;> decide
theorem kind_hi (k : Kind) : k.max ≤ 59 := by cases k <;> decide
theorem kind_le (k : Kind) : k.min ≤ k.max := by cases k <;> decide

theorem item_endless {k : Kind} {f : Int} (h : f = 0 ∨ f = -2 ^ 63) {v : List Char} (hv : InRange k v) (fuel : Nat)
    (acc : List Int) : item k f fuel acc v = none := by
  obtain ⟨hd, first, last, h1, h2, h3, h4, h5, h6⟩ := hv
  have := kind_lo k; have := kind_hi k
  unfold item
  rw [if_neg (by rintro rfl; cases hd), if_neg (by simpa using hd), h1, h2]
  simp only []
  rw [if_neg (by omega)]
  split
  · exact loop_endless h _ _ _ (by omega) (by omega) (by omega) (by omega) (by omega)
  · rw [loop_endless h _ _ _ (by omega) (by omega) (by omega) (by omega) (by omega)]

theorem item_ends_any {k : Kind} {f : Int} {v : List Char} (h : f % 2 ^ 63 ≠ 0 ∨ ¬ InRange k v) :
    ∃ N, ∀ fuel, N ≤ fuel → ∀ acc, item k f fuel acc v ≠ none := by
  have h0 := kind_lo k; have h9 := kind_hi k
  by_cases hv : InRange k v
  · have hf : f % 2 ^ 63 ≠ 0 := by rcases h with h | h; exact h; exact absurd hv h
    obtain ⟨hd, first, last, h1, h2, h3, h4, h5, h6⟩ := hv
    obtain ⟨N1, e1⟩ := loop_ends' (last := last) (i := first) hf (by omega) (by omega) (by omega)
    obtain ⟨N2, e2⟩ := loop_ends' (last := k.max) (i := first) hf (by omega) (by omega) (by omega)
    obtain ⟨N3, e3⟩ := loop_ends' (last := last) (i := k.min) hf (by omega) (by omega) (by omega)
    refine ⟨N1 + N2 + N3, fun fuel hfu acc => ?_⟩
    unfold item
    rw [if_neg (by rintro rfl; cases hd), if_neg (by simpa using hd), h1, h2]
    simp only []
    rw [if_neg (by omega)]
    split
    · exact e1 fuel (by omega) _
    · cases hl : loop f k.max fuel first acc with
      | none => exact absurd hl (e2 fuel (by omega) _)
      | some m => exact e3 fuel (by omega) _
  · refine ⟨0, fun fuel _ acc => ?_⟩
    unfold item
    split
    · simp
    · split
      · split <;> simp
      · rename_i hd
        split
        · rename_i first last e1 e2
          split
          · simp
          · rename_i hb
            exact absurd ⟨Classical.not_not.1 hd, first, last, e1, e2, by omega, by omega, by omega, by omega⟩ hv
        · simp

theorem items_ends {k : Kind} {f : Int} : ∀ {vs : List (List Char)}, (∀ v ∈ vs, f % 2 ^ 63 ≠ 0 ∨ ¬ InRange k v) →
    ∃ N, ∀ fuel, N ≤ fuel → ∀ acc, items k f fuel vs acc ≠ none := by
  intro vs
  induction vs with
  | nil => intro _; exact ⟨0, fun _ _ _ => by simp [items]⟩
  | cons v vs ih =>
    intro h
    obtain ⟨N1, e1⟩ := item_ends_any (h v List.mem_cons_self)
    obtain ⟨N2, e2⟩ := ih (fun w hw => h w (List.mem_cons_of_mem _ hw))
    refine ⟨N1 + N2, fun fuel hf acc => ?_⟩
    simp only [items]
    cases hi : item k f fuel acc v with
    | none => exact absurd hi (e1 fuel (by omega) _)
    | some m => exact e2 fuel (by omega) _

theorem items_endless {k : Kind} {f : Int} (h : f = 0 ∨ f = -2 ^ 63) (fuel : Nat) : ∀ {vs : List (List Char)},
    (∃ v ∈ vs, InRange k v) → ∀ acc, items k f fuel vs acc = none := by
  intro vs
  induction vs with
  | nil => rintro ⟨v, hv, -⟩; cases hv
  | cons w vs ih =>
    rintro ⟨v, hv, hr⟩ acc
    simp only [items]
    rcases List.mem_cons.1 hv with rfl | hv
    · rw [item_endless h hr]
    · cases item k f fuel acc w with
      | none => rfl
      | some m => exact ih ⟨v, hv, hr⟩ m

/-- What makes the loops run: the body is `*` or has a range in bounds. -/
def Loops (k : Kind) (e : List Char) : Prop := e = ['*'] ∨ ∃ v ∈ split e, InRange k v

theorem parseBody_ends {k : Kind} {f : Int} {e : List Char} (h : f % 2 ^ 63 ≠ 0 ∨ ¬ Loops k e) :
    ∃ N, ∀ fuel, N ≤ fuel → parseBody k f fuel e ≠ none := by
  have h0 := kind_lo k; have h9 := kind_hi k; have hle := kind_le k
  unfold parseBody
  by_cases he : e = ['*']
  · have hf : f % 2 ^ 63 ≠ 0 := by rcases h with h | h; exact h; exact absurd (Or.inl he) h
    obtain ⟨N, hN⟩ := loop_ends' (last := k.max) (i := k.min) hf (by omega) (by omega) (by omega)
    refine ⟨N, fun fuel hfu hn => ?_⟩
    rw [Option.map_eq_none_iff, if_pos he] at hn
    exact hN fuel hfu _ hn
  · obtain ⟨N, hN⟩ := items_ends (k := k) (f := f) (vs := split e) (by
      intro v hv
      rcases h with h | h
      · exact Or.inl h
      · exact Or.inr (fun hr => h (Or.inr ⟨v, hv, hr⟩)))
    refine ⟨N, fun fuel hfu hn => ?_⟩
    rw [Option.map_eq_none_iff, if_neg he] at hn
    exact hN fuel hfu _ hn

theorem parseBody_endless {k : Kind} {f : Int} {e : List Char} (h : f = 0 ∨ f = -2 ^ 63) (hl : Loops k e) (fuel : Nat) :
    parseBody k f fuel e = none := by
  have h0 := kind_lo k; have h9 := kind_hi k; have hle := kind_le k
  unfold parseBody
  rw [Option.map_eq_none_iff]
  by_cases he : e = ['*']
  · rw [if_pos he]
    exact loop_endless h _ _ _ (by omega) (by omega) (by omega) (by omega) (by omega)
  · rw [if_neg he]
    rcases hl with hl | hl
    · exact absurd hl he
    · exact items_endless h fuel hl _

theorem atoi_range {l : List Char} {n : Int} (h : atoi l = some n) : -2 ^ 63 ≤ n ∧ n < 2 ^ 63 := by
  unfold atoi at h
  repeat' split at h
  all_goals first
    | (cases h; done)
    | (injection h with h; subst h; omega)

end Braid.Cron
