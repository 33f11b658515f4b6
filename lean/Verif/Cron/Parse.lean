import Verif.Cron.Lemmas
/-
What the cron parser does with a well-formed field.
-/
namespace Braid.Cron
open Spec

/-- The kinds as the specification sees them. -/
def rng : Kind → Range
  | .weekday => ⟨0, 7, 7⟩
  | .month => ⟨1, 12, 12⟩
  | .day => ⟨1, 31, 31⟩
  | .hour => ⟨0, 23, 24⟩
  | .minute => ⟨0, 59, 60⟩
  | .second => ⟨0, 59, 60⟩

theorem rng_min (k : Kind) : k.min = ((rng k).lo : Int) := by cases k <;> rfl
theorem rng_max (k : Kind) : k.max = ((rng k).hi : Int) := by cases k <;> rfl
theorem rng_hi (k : Kind) : (rng k).hi ≤ 59 := by cases k <;> decide

/-- The numbers that the parser takes for an element. -/
def codeHas (r : Range) (n : Nat) : Item → Nat → Prop
  | .value v, x => x = v
  | .range a b, x => if a ≤ b then Steps a b n x else Steps a r.hi n x ∨ Steps r.lo b n x

theorem loop_steps {n a b : Nat} (hn : 1 ≤ n) (hn2 : n + 59 < 2 ^ 63) (hb : b ≤ 59) (acc : List Int) :
    ∃ m, (∀ fuel, 100 ≤ fuel → loop n b fuel a acc = some m) ∧
      ∀ y : Int, y ∈ m ↔ y ∈ acc ∨ ∃ x : Nat, y = x ∧ Steps a b n x := by
  obtain ⟨m, h1, h2⟩ := loop_spec (f := n) (last := b) (by omega) (by omega) 60 a acc (by omega) (by omega)
  refine ⟨m, fun fuel hf => h1 fuel (by omega), fun y => ?_⟩
  rw [h2]
  refine or_congr Iff.rfl ⟨?_, ?_⟩
  · rintro ⟨k, hk, hle⟩
    exact ⟨a + k * n, by rw [hk]; push_cast; rfl, k, rfl, by rw [hk] at hle; exact_mod_cast hle⟩
  · rintro ⟨x, rfl, k, rfl, hle⟩
    exact ⟨k, by push_cast; rfl, by exact_mod_cast hle⟩

theorem itemText_chars {i : Item} {l : List Char} (h : ItemText i l) : l ≠ [] ∧ ∀ c ∈ l, isDig c ∨ c = '-' := by
  cases h with
  | value h =>
    obtain ⟨h1, h2, _⟩ := numeral_facts h
    exact ⟨h1, fun c hc => Or.inl (h2 c hc)⟩
  | range h h' =>
    obtain ⟨h1, h2, _⟩ := numeral_facts h
    obtain ⟨h1', h2', _⟩ := numeral_facts h'
    refine ⟨by simp, fun c hc => ?_⟩
    rw [List.mem_append, List.mem_cons] at hc
    rcases hc with hc | rfl | hc
    · exact Or.inl (h2 c hc)
    · exact Or.inr rfl
    · exact Or.inl (h2' c hc)

theorem item_spec {k : Kind} {n : Nat} (hn : 1 ≤ n) (hn2 : n + 59 < 2 ^ 63) {i : Item} {l : List Char} (ht : ItemText i l)
    (hok : i.Ok (rng k)) (acc : List Int) :
    ∃ m, (∀ fuel, 100 ≤ fuel → item k n fuel acc l = some m) ∧
      ∀ y : Int, y ∈ m ↔ y ∈ acc ∨ ∃ x : Nat, y = x ∧ codeHas (rng k) n i x := by
  have hne := (itemText_chars ht).1
  have hhi := rng_hi k
  cases ht with
  | @value l v h =>
    obtain ⟨_, h2, _⟩ := numeral_facts h
    simp only [Item.Ok] at hok
    refine ⟨v :: acc, fun fuel _ => ?_, fun y => ?_⟩
    · unfold item
      rw [if_neg hne, if_pos (fun hc => (isDig_ne (h2 _ hc)).2.1 rfl), atoi_numeral h (by omega)]
    · simp only [List.mem_cons, codeHas]
      constructor
      · rintro (rfl | h)
        · exact Or.inr ⟨v, rfl, rfl⟩
        · exact Or.inl h
      · rintro (h | ⟨x, rfl, rfl⟩)
        · exact Or.inr h
        · exact Or.inl rfl
  | @range l1 l2 a b h1 h2 =>
    obtain ⟨_, hd1, _⟩ := numeral_facts h1
    simp only [Item.Ok] at hok
    have hidx : index '-' (l1 ++ '-' :: l2) = l1.length :=
      index_append (fun x hx => ⟨(isDig_ne (hd1 x hx)).2.1, isDig_size (hd1 x hx)⟩)
    have e : ∀ fuel, item k n fuel acc (l1 ++ '-' :: l2) = if (b : Int) ≥ a then loop n b fuel a acc else
        match loop n (rng k).hi fuel a acc with
        | some acc => loop n b fuel (rng k).lo acc
        | none => none := by
      intro fuel
      unfold item
      rw [if_neg hne, if_neg (by simp), hidx, subTo_append, subFrom_append, atoi_numeral h1 (by omega),
        atoi_numeral h2 (by omega)]
      simp only [rng_min, rng_max]
      rw [if_neg (by omega)]
      rfl
    by_cases hab : a ≤ b
    · obtain ⟨m, hm1, hm2⟩ := loop_steps (a := a) (b := b) hn hn2 (by omega) acc
      refine ⟨m, fun fuel hf => ?_, fun y => ?_⟩
      · rw [e, if_pos (by omega)]; exact hm1 fuel hf
      · rw [hm2]; simp only [codeHas, if_pos hab]
    · obtain ⟨m, hm1, hm2⟩ := loop_steps (a := a) (b := (rng k).hi) hn hn2 (by omega) acc
      obtain ⟨m', hm1', hm2'⟩ := loop_steps (a := (rng k).lo) (b := b) hn hn2 (by omega) m
      refine ⟨m', fun fuel hf => ?_, fun y => ?_⟩
      · rw [e, if_neg (by omega), hm1 fuel hf]; exact hm1' fuel hf
      · rw [hm2', hm2]; simp only [codeHas, if_neg hab]
        constructor
        · rintro ((h | ⟨x, h, h'⟩) | ⟨x, h, h'⟩)
          · exact Or.inl h
          · exact Or.inr ⟨x, h, Or.inl h'⟩
          · exact Or.inr ⟨x, h, Or.inr h'⟩
        · rintro (h | ⟨x, h, h' | h'⟩)
          · exact Or.inl (Or.inl h)
          · exact Or.inl (Or.inr ⟨x, h, h'⟩)
          · exact Or.inr ⟨x, h, h'⟩

theorem itemText_nocomma {i : Item} {l : List Char} (h : ItemText i l) : ',' ∉ l := by
  intro hc
  rcases (itemText_chars h).2 _ hc with h | h
  · exact (isDig_ne h).2.2.1 rfl
  · exact absurd h (by decide)

theorem items_spec {k : Kind} {n : Nat} (hn : 1 ≤ n) (hn2 : n + 59 < 2 ^ 63) {is : List Item} {l : List Char}
    (ht : ListText is l) (hok : ∀ i ∈ is, i.Ok (rng k)) : ∀ acc : List Int,
    ∃ m, (∀ fuel, 100 ≤ fuel → items k n fuel (split l) acc = some m) ∧
      ∀ y : Int, y ∈ m ↔ y ∈ acc ∨ ∃ x : Nat, y = x ∧ ∃ i ∈ is, codeHas (rng k) n i x := by
  induction ht with
  | one h =>
    intro acc
    obtain ⟨m, h1, h2⟩ := item_spec hn hn2 h (hok _ List.mem_cons_self) acc
    refine ⟨m, fun fuel hf => ?_, fun y => ?_⟩
    · rw [split_nocomma (itemText_nocomma h)]; simp only [items]; rw [h1 fuel hf]
    · rw [h2]; simp
  | more h _ ih =>
    intro acc
    obtain ⟨m, h1, h2⟩ := item_spec hn hn2 h (hok _ List.mem_cons_self) acc
    obtain ⟨m', h1', h2'⟩ := ih (fun i hi => hok i (List.mem_cons_of_mem _ hi)) m
    refine ⟨m', fun fuel hf => ?_, fun y => ?_⟩
    · rw [split_append (itemText_nocomma h)]; simp only [items]; rw [h1 fuel hf]; exact h1' fuel hf
    · rw [h2', h2]
      constructor
      · rintro ((h | ⟨x, h, h'⟩) | ⟨x, h, i, hi, h'⟩)
        · exact Or.inl h
        · exact Or.inr ⟨x, h, _, List.mem_cons_self, h'⟩
        · exact Or.inr ⟨x, h, i, List.mem_cons_of_mem _ hi, h'⟩
      · rintro (hy | ⟨x, hy, j, hj, h'⟩)
        · exact Or.inl (Or.inl hy)
        · rcases List.mem_cons.1 hj with hj | hj
          · exact Or.inl (Or.inr ⟨x, hy, hj ▸ h'⟩)
          · exact Or.inr ⟨x, hy, j, hj, h'⟩

/-- The numbers that the parser takes for a body. -/
def bodyHas (r : Range) (n : Nat) : Body → Nat → Prop
  | .star, x => Steps r.lo r.hi n x
  | .list is, x => ∃ i ∈ is, codeHas r n i x

theorem listText_chars {is : List Item} {l : List Char} (h : ListText is l) :
    ∀ c ∈ l, isDig c ∨ c = '-' ∨ c = ',' := by
  induction h with
  | one h => intro c hc; rcases (itemText_chars h).2 c hc with h | h <;> simp [h]
  | more h _ ih =>
    intro c hc
    rw [List.mem_append, List.mem_cons] at hc
    rcases hc with hc | rfl | hc
    · rcases (itemText_chars h).2 c hc with h | h <;> simp [h]
    · simp
    · exact ih c hc

theorem bodyText_chars {b : Body} {l : List Char} (h : BodyText b l) :
    ∀ c ∈ l, c ≠ '/' ∧ c.utf8Size = 1 := by
  cases h with
  | star => intro c hc; rw [List.mem_singleton] at hc; subst hc; decide
  | list h =>
    intro c hc
    rcases listText_chars h c hc with h | rfl | rfl
    · exact ⟨(isDig_ne h).1, isDig_size h⟩
    · decide
    · decide

def Body.Ok (r : Range) : Body → Prop
  | .star => True
  | .list is => ∀ i ∈ is, i.Ok r

theorem body_spec {k : Kind} {n : Nat} (hn : 1 ≤ n) (hn2 : n + 59 < 2 ^ 63) {b : Body} {l : List Char}
    (ht : BodyText b l) (hok : Body.Ok (rng k) b) :
    ∃ m, (∀ fuel, 100 ≤ fuel → parseBody k n fuel l = some (fixWeekday k m)) ∧
      ∀ y : Int, y ∈ m ↔ ∃ x : Nat, y = x ∧ bodyHas (rng k) n b x := by
  cases ht with
  | star =>
    obtain ⟨m, h1, h2⟩ := loop_steps (a := (rng k).lo) (b := (rng k).hi) hn hn2 (rng_hi k) []
    refine ⟨m, fun fuel hf => ?_, fun y => ?_⟩
    · unfold parseBody; rw [if_pos rfl, rng_min, rng_max, h1 fuel hf]; rfl
    · rw [h2]; simp only [List.not_mem_nil, false_or, bodyHas]
  | list h =>
    obtain ⟨m, h1, h2⟩ := items_spec hn hn2 h hok []
    refine ⟨m, fun fuel hf => ?_, fun y => ?_⟩
    · unfold parseBody
      rw [if_neg, h1 fuel hf]
      · rfl
      · rintro rfl
        rcases listText_chars h '*' (by simp) with h | h | h
        · exact (isDig_ne h).2.2.2.1 rfl
        · exact absurd h (by decide)
        · exact absurd h (by decide)
    · rw [h2]; simp only [List.not_mem_nil, false_or, bodyHas]

theorem field_spec {k : Kind} {f : Field} {l : List Char} (ht : FieldText f l) (hok : f.Ok (rng k))
    (hn2 : f.step + 59 < 2 ^ 63) :
    ∃ m, (∀ fuel, 100 ≤ fuel → parse k fuel l = some (some (fixWeekday k m))) ∧
      ∀ y : Int, y ∈ m ↔ ∃ x : Nat, y = x ∧ bodyHas (rng k) f.step f.body x := by
  have hn := hok.1
  have hb : Body.Ok (rng k) f.body := by
    have := hok.2; unfold Body.Ok; cases hf : f.body <;> simp only [hf] at this <;> exact this
  cases ht with
  | plain h =>
    obtain ⟨m, h1, h2⟩ := body_spec hn hn2 h hb
    refine ⟨m, fun fuel hf => ?_, h2⟩
    unfold parse
    rw [if_neg (fun hc => (bodyText_chars h _ hc).1 rfl)]
    have := h1 fuel hf
    simp only [Int.natCast_one] at this
    rw [this]; rfl
  | @step b l n ns h hs =>
    obtain ⟨m, h1, h2⟩ := body_spec hn hn2 h hb
    refine ⟨m, fun fuel hf => ?_, h2⟩
    have hidx : index '/' (l ++ '/' :: ns) = l.length := index_append (bodyText_chars h)
    have hn2' : n + 59 < 2 ^ 63 := hn2
    unfold parse
    rw [if_pos (by simp), hidx, subTo_append, subFrom_append, atoi_numeral hs (by omega)]
    simp only []
    rw [h1 fuel hf]; rfl

theorem mem_fixWeekday {k : Kind} {m : List Int} (hm : ∀ y ∈ m, ((rng k).lo : Int) ≤ y ∧ y ≤ (rng k).hi) {x : Nat}
    (h1 : (rng k).lo ≤ x) (h2 : x < (rng k).lo + (rng k).period) :
    (x : Int) ∈ fixWeekday k m ↔ ∃ y : Nat, (y : Int) ∈ m ∧ y % (rng k).period = x % (rng k).period := by
  have key : (∃ y : Nat, (y : Int) ∈ m ∧ y % (rng k).period = x % (rng k).period) ↔
      (x : Int) ∈ m ∨ (k = .weekday ∧ x = 0 ∧ (7 : Int) ∈ m) := by
    constructor
    · rintro ⟨y, hy, he⟩
      have hb := hm _ hy
      by_cases hxy : y = x
      · subst hxy; exact Or.inl hy
      · right
        cases k <;> simp only [rng] at h1 h2 he hb <;> first
          | (exfalso; omega)
          | (have : y = 7 := by omega
             subst this; exact ⟨rfl, by omega, hy⟩)
    · rintro (h | ⟨rfl, rfl, h⟩)
      · exact ⟨x, h, rfl⟩
      · exact ⟨7, h, rfl⟩
  rw [key]
  unfold fixWeekday
  split
  · rename_i h
    obtain ⟨rfl, h7⟩ := h
    simp only [rng] at h1 h2
    simp only [List.mem_cons, List.mem_filter, decide_eq_true_eq]
    constructor
    · rintro (h | h)
      · exact Or.inr ⟨trivial, by omega, h7⟩
      · exact Or.inl h.1
    · rintro (h | ⟨-, h, -⟩)
      · exact Or.inr ⟨h, by omega⟩
      · exact Or.inl (by omega)
  · rename_i h
    constructor
    · exact Or.inl
    · rintro (h' | ⟨hk, -, h7⟩)
      · exact h'
      · exact absurd ⟨hk, h7⟩ h

end Braid.Cron
