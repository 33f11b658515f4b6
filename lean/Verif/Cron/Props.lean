import Verif.Cron.Parse
import Verif.Cron.Ends
/-
C54 (a cron field denotes the documented set), C55 (parsing terminates).
-/
namespace Braid.Cron
open Spec

/-- The bounds of the numbers that the parser takes. -/
theorem bodyHas_bounds {k : Kind} {f : Field} (hok : f.Ok (rng k)) {x : Nat}
    (h : bodyHas (rng k) f.step f.body x) : (rng k).lo ≤ x ∧ x ≤ (rng k).hi := by
  have hok2 := hok.2
  cases hf : f.body with
  | star =>
    rw [hf] at h
    obtain ⟨j, rfl, h2⟩ := h
    exact ⟨by omega, h2⟩
  | list is =>
    rw [hf] at h
    simp only [hf] at hok2
    obtain ⟨i, hi, h⟩ := h
    have ho := hok2 i hi
    cases i with
    | value v => cases h; exact ho
    | range a b =>
      simp only [Item.Ok] at ho
      simp only [codeHas] at h
      split at h
      · obtain ⟨j, rfl, h2⟩ := h; omega
      · rcases h with ⟨j, rfl, h2⟩ | ⟨j, rfl, h2⟩ <;> omega

/-- C54, the part that holds: every well-formed field, in every way of writing it, of every kind, with a step of at
most 2^63 - 60, is parsed to a set that matches exactly the values that the field denotes, if no range wraps around with
a step other than 1. Full claim: the same for every well-formed field; refuted below for ranges that wrap around
with a step and for larger steps. -/
theorem C54_denotes_partial {k : Kind} {f : Field} {e : List Char} (ht : FieldText f e) (hok : f.Ok (rng k))
    (hn : f.step + 59 < 2 ^ 63) (hs : f.Straight) :
    ∃ m, (∀ fuel, 100 ≤ fuel → parse k fuel e = some (some m)) ∧
      ∀ x : Nat, (rng k).lo ≤ x → x < (rng k).lo + (rng k).period → (isMatch m x = true ↔ f.Denotes (rng k) x) := by
  obtain ⟨m, h1, h2⟩ := field_spec ht hok hn
  refine ⟨_, h1, fun x hx1 hx2 => ?_⟩
  have hm : ∀ y ∈ m, ((rng k).lo : Int) ≤ y ∧ y ≤ (rng k).hi := by
    intro y hy
    obtain ⟨z, rfl, hz⟩ := (h2 y).1 hy
    have := bodyHas_bounds hok hz
    omega
  unfold isMatch
  rw [decide_eq_true_eq, mem_fixWeekday hm hx1 hx2]
  have h3 : ∀ y : Nat, (y : Int) ∈ m ↔ bodyHas (rng k) f.step f.body y := by
    intro y
    rw [h2]
    exact ⟨fun ⟨z, hz, h⟩ => by rw [show y = z by omega]; exact h, fun h => ⟨y, rfl, h⟩⟩
  simp only [h3]
  unfold Field.Denotes Field.Numbers
  have hok2 := hok.2
  cases hf : f.body with
  | star =>
    simp only [bodyHas]
    constructor
    · rintro ⟨y, h, he⟩
      obtain ⟨j, rfl, hj⟩ := h
      exact ⟨_, ⟨j, rfl, hj⟩, he, by omega, hj⟩
    · rintro ⟨y, h, he, -, -⟩
      exact ⟨y, h, he⟩
  | list is =>
    simp only [hf] at hok2
    simp only [bodyHas]
    constructor
    · rintro ⟨y, ⟨i, hi, h⟩, he⟩
      have hb : (rng k).lo ≤ y ∧ y ≤ (rng k).hi := bodyHas_bounds hok (by rw [hf]; exact ⟨i, hi, h⟩)
      have ho := hok2 i hi
      cases i with
      | value v => exact ⟨y, ⟨_, hi, h⟩, he, hb⟩
      | range a b =>
        simp only [codeHas] at h
        split at h
        · rename_i hab
          exact ⟨y, ⟨_, hi, by simp only [Item.Has, if_pos hab]; exact h⟩, he, hb⟩
        · rename_i hab
          have hn1 : f.step = 1 := by
            rcases hs with hs | hs
            · exact hs
            · simp only [hf] at hs; exact absurd (hs _ hi) hab
          simp only [Item.Ok] at ho
          refine ⟨y, ⟨_, hi, ?_⟩, he, hb⟩
          simp only [Item.Has, if_neg hab, hn1, Nat.mul_one]
          rw [hn1] at h
          rcases h with ⟨j, rfl, hj⟩ | ⟨j, rfl, hj⟩
          · refine ⟨j, ?_, Or.inl (by omega), by omega⟩
            cases k <;> simp only [rng] at * <;> omega
          · refine ⟨(rng k).lo + j * 1 + (rng k).period - a, ?_, ?_, hb.2⟩ <;> cases k <;> simp only [rng] at * <;> omega
    · rintro ⟨y, ⟨i, hi, h⟩, he, hb⟩
      have ho := hok2 i hi
      cases i with
      | value v => exact ⟨y, ⟨_, hi, h⟩, he⟩
      | range a b =>
        simp only [Item.Has] at h
        split at h
        · rename_i hab
          exact ⟨y, ⟨_, hi, by simp only [codeHas, if_pos hab]; exact h⟩, he⟩
        · rename_i hab
          have hn1 : f.step = 1 := by
            rcases hs with hs | hs
            · exact hs
            · simp only [hf] at hs; exact absurd (hs _ hi) hab
          simp only [Item.Ok] at ho
          rw [hn1] at h
          simp only [Nat.mul_one] at h
          obtain ⟨j, hj1, hj2, hj3⟩ := h
          refine ⟨y, ⟨_, hi, ?_⟩, he⟩
          simp only [codeHas, if_neg hab, hn1]
          rcases hj2 with hj2 | hj2
          · exact Or.inl ⟨j, by omega, hb.2⟩
          · by_cases hyb : y ≤ b
            · exact Or.inr ⟨y - (rng k).lo, by omega, hyb⟩
            · exfalso; omega

/-- C54, exactly what the parser does, also for ranges that wrap around with a step: the field means the same as the one
in which such a range is written as two, each with the step. -/
theorem C54_exact {k : Kind} {f : Field} {e : List Char} (ht : FieldText f e) (hok : f.Ok (rng k))
    (hn : f.step + 59 < 2 ^ 63) :
    ∃ m, (∀ fuel, 100 ≤ fuel → parse k fuel e = some (some m)) ∧
      ∀ x : Nat, (rng k).lo ≤ x → x < (rng k).lo + (rng k).period →
        (isMatch m x = true ↔ (f.unwrap (rng k)).Denotes (rng k) x) := by
  obtain ⟨m, h1, h2⟩ := field_spec ht hok hn
  refine ⟨_, h1, fun x hx1 hx2 => ?_⟩
  have hm : ∀ y ∈ m, ((rng k).lo : Int) ≤ y ∧ y ≤ (rng k).hi := by
    intro y hy
    obtain ⟨z, rfl, hz⟩ := (h2 y).1 hy
    have := bodyHas_bounds hok hz
    omega
  unfold isMatch
  rw [decide_eq_true_eq, mem_fixWeekday hm hx1 hx2]
  have h3 : ∀ y : Nat, (y : Int) ∈ m ↔ bodyHas (rng k) f.step f.body y := by
    intro y
    rw [h2]
    exact ⟨fun ⟨z, hz, h⟩ => by rw [show y = z by omega]; exact h, fun h => ⟨y, rfl, h⟩⟩
  simp only [h3]
  have hok2 := hok.2
  have h4 : ∀ y : Nat, bodyHas (rng k) f.step f.body y ↔ (f.unwrap (rng k)).Numbers (rng k) y := by
    intro y
    unfold Field.Numbers Field.unwrap
    cases hf : f.body with
    | star => simp only [bodyHas]
    | list is =>
      simp only [hf] at hok2
      simp only [bodyHas, List.mem_flatMap]
      constructor
      · rintro ⟨i, hi, h⟩
        cases i with
        | value v => exact ⟨.value v, ⟨_, hi, by simp [Item.unwrap]⟩, h⟩
        | range a b =>
          have ho := hok2 _ hi
          simp only [Item.Ok] at ho
          simp only [codeHas] at h
          split at h
          · rename_i hab
            exact ⟨.range a b, ⟨_, hi, by simp [Item.unwrap, hab]⟩, by simpa only [Item.Has, if_pos hab] using h⟩
          · rename_i hab
            rcases h with h | h
            · exact ⟨.range a (rng k).hi, ⟨_, hi, by simp [Item.unwrap, hab]⟩, by simpa only [Item.Has, if_pos ho.2.1] using h⟩
            · exact ⟨.range (rng k).lo b, ⟨_, hi, by simp [Item.unwrap, hab]⟩,
                by simpa only [Item.Has, if_pos ho.2.2.1] using h⟩
      · rintro ⟨j, ⟨i, hi, hj⟩, h⟩
        refine ⟨i, hi, ?_⟩
        cases i with
        | value v =>
          simp only [Item.unwrap, List.mem_singleton] at hj
          subst hj; exact h
        | range a b =>
          have ho := hok2 _ hi
          simp only [Item.Ok] at ho
          simp only [Item.unwrap] at hj
          simp only [codeHas]
          split at hj
          · rename_i hab
            rw [List.mem_singleton] at hj
            subst hj
            rw [if_pos hab]
            simpa only [Item.Has, if_pos hab] using h
          · rename_i hab
            rw [if_neg hab]
            simp only [List.mem_cons, List.not_mem_nil, or_false] at hj
            rcases hj with rfl | rfl
            · left; simpa only [Item.Has, if_pos ho.2.1] using h
            · right; simpa only [Item.Has, if_pos ho.2.2.1] using h
  simp only [h4]
  unfold Field.Denotes
  constructor
  · rintro ⟨y, h, he⟩
    have hb := bodyHas_bounds hok ((h4 y).2 h)
    exact ⟨y, h, he, hb⟩
  · rintro ⟨y, h, he, -⟩
    exact ⟨y, h, he⟩

/-- The example: "22-2,05" for hours, which denotes 22, 23, 0, 1, 2 and 5. -/
example : ∃ f : Field, FieldText f "22-2,05".toList ∧ f.Ok (rng .hour) ∧ f.Straight ∧ f.Denotes (rng .hour) 23 ∧
    f.Denotes (rng .hour) 1 ∧ ¬ f.Denotes (rng .hour) 3 := by
  have d : ∀ n < 10, Numeral [Char.ofNat (48 + n)] n := fun n h => .one n h
  refine ⟨⟨.list [.range 22 2, .value 5], 1⟩, ?_, ?_, Or.inl rfl, ?_, ?_, ?_⟩
  · exact .plain (.list (.more (.range (.more 2 (d 2 (by omega)) (by omega)) (d 2 (by omega)))
      (.one (.value (.more 5 (d 0 (by omega)) (by omega))))))
  · refine ⟨Nat.le_refl _, ?_⟩
    intro i hi
    simp only [List.mem_cons, List.not_mem_nil, or_false] at hi
    rcases hi with rfl | rfl <;> simp [Item.Ok, rng]
  · exact ⟨23, ⟨_, List.mem_cons_self, by simp only [Item.Has, rng]; exact ⟨1, by decide⟩⟩, rfl, by decide, by decide⟩
  · exact ⟨1, ⟨_, List.mem_cons_self, by simp only [Item.Has, rng]; exact ⟨3, by decide⟩⟩, rfl, by decide, by decide⟩
  · rintro ⟨y, ⟨i, hi, h⟩, he, h1, h2⟩
    simp only [rng] at he h2
    simp only [List.mem_cons, List.not_mem_nil, or_false] at hi
    rcases hi with rfl | rfl
    · simp only [Item.Has, rng] at h
      obtain ⟨j, h3, h4, h5⟩ := h
      omega
    · simp only [Item.Has] at h; omega

/-- C54 is violated: a range that wraps around starts its steps again at the smallest value. "22-4/5" for hours
denotes 22 and 3 (22 + 5 = 27), but the parser takes 22 and 0. -/
theorem C54_wrap_step_refuted : ∃ (f : Field) (m : List Int), FieldText f "22-4/5".toList ∧ f.Ok (rng .hour) ∧
    f.step + 59 < 2 ^ 63 ∧ (∀ fuel, 100 ≤ fuel → parse .hour fuel "22-4/5".toList = some (some m)) ∧
    (f.Denotes (rng .hour) 3 ∧ isMatch m 3 = false) ∧ (¬ f.Denotes (rng .hour) 0 ∧ isMatch m 0 = true) := by
  have d : ∀ n < 10, Numeral [Char.ofNat (48 + n)] n := fun n h => .one n h
  have ht : FieldText ⟨.list [.range 22 4], 5⟩ "22-4/5".toList :=
    .step (.list (.one (.range (.more 2 (d 2 (by omega)) (by omega)) (d 4 (by omega))))) (d 5 (by omega))
  have hok : Field.Ok (rng .hour) ⟨.list [.range 22 4], 5⟩ := by
    refine ⟨by decide, ?_⟩
    intro i hi
    simp only [List.mem_cons, List.not_mem_nil, or_false] at hi
    subst hi; simp [Item.Ok, rng]
  obtain ⟨m, h1, h2⟩ := field_spec ht hok (by decide)
  refine ⟨_, fixWeekday .hour m, ht, hok, by decide, h1, ⟨?_, ?_⟩, ?_, ?_⟩
  · exact ⟨3, ⟨_, List.mem_cons_self, by simp only [Item.Has, rng]; exact ⟨1, by decide⟩⟩, rfl, by decide, by decide⟩
  · have : ¬ (3 : Int) ∈ fixWeekday .hour m := by
      unfold fixWeekday
      rw [if_neg (by simp), h2]
      rintro ⟨x, hx, i, hi, h⟩
      simp only [List.mem_cons, List.not_mem_nil, or_false] at hi
      subst hi
      simp only [codeHas, Steps, rng] at h
      rcases h with ⟨j, h, h'⟩ | ⟨j, h, h'⟩ <;> omega
    unfold isMatch; exact decide_eq_false this
  · rintro ⟨y, ⟨i, hi, h⟩, he, h3, h4⟩
    simp only [rng] at he h4
    simp only [List.mem_cons, List.not_mem_nil, or_false] at hi
    subst hi
    simp only [Item.Has, rng] at h
    obtain ⟨j, h5, h6, h7⟩ := h
    omega
  · have : (0 : Int) ∈ fixWeekday .hour m := by
      unfold fixWeekday
      rw [if_neg (by simp), h2]
      exact ⟨0, rfl, _, List.mem_cons_self, by simp only [codeHas, rng]; exact Or.inr ⟨0, by decide⟩⟩
    unfold isMatch; exact decide_eq_true this

/-- C54 is violated for steps above 2^63 - 60, where `i + frequency` overflows: "5-59/9223372036854775807" for minutes
denotes 5 only, but the parser takes 3 and 1 as well. -/
theorem C54_overflow_refuted : ∃ (f : Field) (m : List Int), FieldText f "5-59/9223372036854775807".toList ∧
    f.Ok (rng .minute) ∧ f.Straight ∧ (∀ fuel, 100 ≤ fuel → parse .minute fuel "5-59/9223372036854775807".toList = some (some m)) ∧
    ¬ f.Denotes (rng .minute) 3 ∧ isMatch m 3 = true := by
  have d : ∀ n < 10, Numeral [Char.ofNat (48 + n)] n := fun n h => .one n h
  refine ⟨⟨.list [.range 5 59], 9223372036854775807⟩,
    [-1, -9223372036854775808, 1, -9223372036854775806, 3, -9223372036854775804, 5], ?_, ?_, Or.inr ?_, ?_, ?_, by decide⟩
  · refine .step (l := "5-59".toList) (ns := "9223372036854775807".toList)
      (.list (.one (.range (d 5 (by omega)) (.more 9 (d 5 (by omega)) (by omega))))) ?_
    have h1 := d 9 (by omega)
    exact .more 7 (.more 0 (.more 8 (.more 5 (.more 7 (.more 7 (.more 4 (.more 5 (.more 8 (.more 6 (.more 3 (.more 0
      (.more 2 (.more 7 (.more 3 (.more 3 (.more 2 (.more 2 h1 (by omega)) (by omega)) (by omega)) (by omega)) (by omega))
      (by omega)) (by omega)) (by omega)) (by omega)) (by omega)) (by omega)) (by omega)) (by omega)) (by omega)) (by omega))
      (by omega)) (by omega)) (by omega)
  · refine ⟨by decide, ?_⟩
    intro i hi
    simp only [List.mem_cons, List.not_mem_nil, or_false] at hi
    subst hi; simp [Item.Ok, rng]
  · intro i hi
    simp only [List.mem_cons, List.not_mem_nil, or_false] at hi
    subst hi; decide
  · intro fuel hf
    obtain ⟨n, rfl⟩ : ∃ n, fuel = n + 100 := ⟨fuel - 100, by omega⟩
    have e1 : loop 9223372036854775807 59 (n + 100) 5 [] =
        some [-1, -9223372036854775808, 1, -9223372036854775806, 3, -9223372036854775804, 5] := by
      simp [loop, add64]
    have e2 : item .minute 9223372036854775807 (n + 100) [] "5-59".toList =
        some [-1, -9223372036854775808, 1, -9223372036854775806, 3, -9223372036854775804, 5] := by
      rw [← e1]
      unfold item
      rw [if_neg (by decide), if_neg (by decide), show atoi (subTo "5-59".toList (index '-' "5-59".toList)) = some 5 by decide,
        show atoi (subFrom "5-59".toList (index '-' "5-59".toList + 1)) = some 59 by decide]
      simp only []
      rw [if_neg (by decide), if_pos (by decide)]
    unfold parse
    rw [if_pos (by decide), show atoi (subFrom "5-59/9223372036854775807".toList
      (index '/' "5-59/9223372036854775807".toList + 1)) = some 9223372036854775807 by decide,
      show subTo "5-59/9223372036854775807".toList (index '/' "5-59/9223372036854775807".toList) = "5-59".toList by decide]
    simp only []
    unfold parseBody
    rw [if_neg (by decide), show split "5-59".toList = ["5-59".toList] by decide]
    simp only [items]
    rw [e2]
    rfl
  · rintro ⟨y, ⟨i, hi, h⟩, he, h3, h4⟩
    simp only [rng] at he h4
    simp only [List.mem_cons, List.not_mem_nil, or_false] at hi
    subst hi
    simp only [Item.Has] at h
    obtain ⟨j, h5, h6⟩ := h
    omega

/-- C55 is violated: for a step of 0 the parser does not end, for any kind. -/
theorem C55_zero_step_refuted (k : Kind) : ∀ fuel, parse k fuel "*/0".toList = none := by
  intro fuel
  have h : parse k fuel "*/0".toList = (parseBody k 0 fuel ['*']).map some := rfl
  rw [h]
  unfold parseBody
  rw [if_pos rfl, loop_zero fuel _ _ (by cases k <;> decide) (by cases k <;> decide) (by cases k <;> decide)]
  rfl

/-- The same for every range in bounds, however it is written: with step 0 the parser does not end. -/
theorem C55_zero_range_refuted {k : Kind} {a b : Nat} {l1 l2 : List Char} (h1 : Numeral l1 a) (h2 : Numeral l2 b)
    (hok : Item.Ok (rng k) (.range a b)) : ∀ fuel, parse k fuel (l1 ++ '-' :: l2 ++ ['/', '0']) = none := by
  intro fuel
  have hb : BodyText (.list [.range a b]) (l1 ++ '-' :: l2) := .list (.one (.range h1 h2))
  have hit : ItemText (.range a b) (l1 ++ '-' :: l2) := .range h1 h2
  have hidx : index '/' (l1 ++ '-' :: l2 ++ '/' :: ['0']) = (l1 ++ '-' :: l2).length := index_append (bodyText_chars hb)
  have hhi := rng_hi k
  simp only [Item.Ok] at hok
  obtain ⟨_, hd1, _⟩ := numeral_facts h1
  have hidx2 : index '-' (l1 ++ '-' :: l2) = l1.length :=
    index_append (fun x hx => ⟨(isDig_ne (hd1 x hx)).2.1, isDig_size (hd1 x hx)⟩)
  have hitem : item k 0 fuel [] (l1 ++ '-' :: l2) = none := by
    unfold item
    rw [if_neg (itemText_chars hit).1, if_neg (by simp), hidx2, subTo_append, subFrom_append,
      atoi_numeral h1 (by omega), atoi_numeral h2 (by omega)]
    simp only [rng_min, rng_max]
    rw [if_neg (by omega)]
    split
    · exact loop_zero _ _ _ (by omega) (by omega) (by omega)
    · rw [loop_zero _ _ _ (by omega) (by omega) (by omega)]
  unfold parse
  rw [if_pos (by simp), hidx, subTo_append, subFrom_append, show atoi ['0'] = some 0 by decide]
  simp only []
  unfold parseBody
  rw [if_neg, split_nocomma (itemText_nocomma hit)]
  · simp only [items]; rw [hitem]; rfl
  · intro he
    have : '-' ∈ ['*'] := by rw [← he]; simp
    revert this; decide

/-- C55 is violated in its second part too: text that is not a field is no error, it gives a set that matches
nothing; so does a number that is out of range, for which no time matches. -/
theorem C55_no_error_refuted (k : Kind) : parse k 1 "abc".toList = some (some []) ∧
    parse k 1 "99".toList = some (some [99]) ∧ k.max < 99 := by
  refine ⟨by cases k <;> rfl, by cases k <;> rfl, by cases k <;> decide⟩

theorem item_ends {k : Kind} {f : Int} (hf : 1 ≤ f) (hf2 : f + 59 < 2 ^ 63) (acc : List Int) (l : List Char) (fuel : Nat)
    (hfuel : 100 ≤ fuel) : item k f fuel acc l ≠ none := by
  have hlo : 0 ≤ k.min := by cases k <;> decide
  have hhi : k.max ≤ 59 := by cases k <;> decide
  have end' : ∀ a b acc, 0 ≤ a → b ≤ 59 → ∃ m, loop f b fuel a acc = some m := by
    intro a b acc ha hb
    obtain ⟨m, h, -⟩ := loop_spec (f := f) (last := b) hf (by omega) 60 a acc (by omega) (by omega)
    exact ⟨m, h fuel (by omega)⟩
  unfold item
  split
  · simp
  · split
    · split <;> simp
    · split
      · rename_i first last _ _
        split
        · simp
        · split
          · obtain ⟨m, h⟩ := end' first last acc (by omega) (by omega)
            rw [h]; simp
          · obtain ⟨m, h⟩ := end' first k.max acc (by omega) (by omega)
            obtain ⟨m', h'⟩ := end' k.min last m (by omega) (by omega)
            rw [h]; simp only []; rw [h']; simp
      · simp

/-- C55, the part that holds: for every string whatsoever, unless the text after its first `/` is an integer less
than 1 or greater than 2^63 - 60, every loop ends after fewer than 100 steps. Full claim: for every string; refuted
above. (`subFrom e (index '/' e + 1)` is the text after the `/` as the code takes it.) -/
theorem C55_terminates_partial (k : Kind) (e : List Char)
    (h : '/' ∈ e → ∀ n, atoi (subFrom e (index '/' e + 1)) = some n → 1 ≤ n ∧ n + 59 < 2 ^ 63) (fuel : Nat)
    (hfuel : 100 ≤ fuel) : parse k fuel e ≠ none := by
  have hbody : ∀ (f : Int) (l : List Char), 1 ≤ f → f + 59 < 2 ^ 63 → parseBody k f fuel l ≠ none := by
    intro f l hf hf2 hn
    unfold parseBody at hn
    rw [Option.map_eq_none_iff] at hn
    have hlo : 0 ≤ k.min := by cases k <;> decide
    have hhi : k.max ≤ 59 := by cases k <;> decide
    split at hn
    · obtain ⟨m, h, -⟩ := loop_spec (f := f) (last := k.max) hf (by omega) 60 k.min [] (by omega) (by omega)
      rw [h fuel (by omega)] at hn; cases hn
    · have : ∀ (vs : List (List Char)) acc, items k f fuel vs acc ≠ none := by
        intro vs
        induction vs with
        | nil => intro acc; simp [items]
        | cons v vs ih =>
          intro acc
          simp only [items]
          cases hi : item k f fuel acc v with
          | none => exact absurd hi (item_ends hf hf2 acc v fuel hfuel)
          | some m => exact ih m
      exact this _ _ hn
  unfold parse
  split
  · rename_i hs
    split
    · simp
    · rename_i f hf
      intro hn
      rw [Option.map_eq_none_iff] at hn
      exact hbody f _ (h hs f hf).1 (h hs f hf).2 hn
  · intro hn
    rw [Option.map_eq_none_iff] at hn
    exact hbody 1 _ (by decide) (by decide) hn

/-- C55, exactly when the parser ends, for every string: unless the text after the first `/` is the integer 0 or -2^63
and the text before it is `*` or has a range in bounds. (`Loops` and `InRange` say the latter in terms of the texts.)
For negative steps the number of steps can be as large as 2^63. -/
theorem C55_terminates_iff (k : Kind) (e : List Char) : (∃ fuel, parse k fuel e ≠ none) ↔
    ¬ ('/' ∈ e ∧ (atoi (subFrom e (index '/' e + 1)) = some 0 ∨ atoi (subFrom e (index '/' e + 1)) = some (-2 ^ 63)) ∧
      Loops k (subTo e (index '/' e))) := by
  constructor
  · rintro ⟨fuel, hp⟩ ⟨hs, hz, hl⟩
    apply hp
    unfold parse
    rw [if_pos hs]
    rcases hz with hz | hz <;> rw [hz] <;> simp only [] <;> rw [parseBody_endless (by omega) hl] <;> rfl
  · intro h
    unfold parse
    by_cases hs : '/' ∈ e
    · cases hz : atoi (subFrom e (index '/' e + 1)) with
      | none => exact ⟨0, by simp [hs, hz]⟩
      | some f =>
        have hr := atoi_range hz
        have : f % 2 ^ 63 ≠ 0 ∨ ¬ Loops k (subTo e (index '/' e)) := by
          by_cases hl : Loops k (subTo e (index '/' e))
          · left
            intro hf
            apply h
            refine ⟨hs, ?_, hl⟩
            rw [hz]
            rcases (show f = 0 ∨ f = -2 ^ 63 by omega) with rfl | rfl
            · exact Or.inl rfl
            · exact Or.inr rfl
          · exact Or.inr hl
        obtain ⟨N, hN⟩ := parseBody_ends this
        refine ⟨N, fun hn => ?_⟩
        rw [if_pos hs] at hn
        rw [Option.map_eq_none_iff] at hn
        exact hN N (Nat.le_refl _) hn
    · obtain ⟨N, hN⟩ := parseBody_ends (k := k) (f := 1) (e := e) (Or.inl (by decide))
      refine ⟨N, fun hn => ?_⟩
      rw [if_neg hs, Option.map_eq_none_iff] at hn
      exact hN N (Nat.le_refl _) hn

/-- The example: a step of 0 does no harm if there is nothing to repeat, and the smallest int loops for ever. -/
example : (∃ fuel, parse .hour fuel "1,2/0".toList ≠ none) ∧
    ¬ ∃ fuel, parse .hour fuel "*/-9223372036854775808".toList ≠ none := by
  refine ⟨⟨1, by decide⟩, ?_⟩
  rw [C55_terminates_iff]
  intro h
  exact h ⟨by decide, Or.inr (by decide), Or.inl (by decide)⟩

/-- C55: a step that is not an integer is an error (nil), whatever stands before it. -/
theorem C55_bad_step {k : Kind} {e : List Char} (hs : '/' ∈ e) (h : atoi (subFrom e (index '/' e + 1)) = none)
    (fuel : Nat) : parse k fuel e = some none := by
  unfold parse; rw [if_pos hs, h]

/-- The example: a field with garbage, and one with a step that is no number. -/
example : parse .minute 100 "a-,7,,5-x,70-80,1-3/2".toList = some (some [3, 1, 7]) ∧
    parse .minute 100 "1-3/2,5".toList = some none := by decide

end Braid.Cron
