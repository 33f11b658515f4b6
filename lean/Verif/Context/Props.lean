import Verif.Context.Spec

/-
Property C71: the values in an actor's context, for every sequence of calls `WithValue` with any keys.
-/
namespace Braid.Context

/-- What the calls leave on top. -/
theorem after_top (base : Key → Option Val) (a s : Nat) (calls : List Call) :
    ∃ t, after base a s calls = ⟨base, t ++ [(.actor, .actor a), (.system, .sys s)]⟩ ∧
      t = (calls.filterMap fun x => if x.null = false ∧ x.cmp = true then some (x.key, x.value) else none).reverse := by
  suffices h : ∀ t, calls.foldl (fun c x => ctxWithValue c x.key x.value) ⟨base, t ++ [(.actor, .actor a), (.system, .sys s)]⟩ =
      ⟨base, ((calls.filterMap fun x => if x.null = false ∧ x.cmp = true then some (x.key, x.value) else none).reverse ++ t) ++
        [(.actor, .actor a), (.system, .sys s)]⟩ by
    exact ⟨_, by simpa [after, make] using h [], rfl⟩
  induction calls with
  | nil => intro t; rfl
  | cons x xs ih =>
    intro t
    rw [List.foldl_cons]
    rcases x with ⟨ty, c, kv, v, nl⟩
    cases nl
    · cases c
      · have : ctxWithValue ⟨base, t ++ [(.actor, .actor a), (.system, .sys s)]⟩ (Call.mk ty false kv v false).key v =
            ⟨base, t ++ [(.actor, .actor a), (.system, .sys s)]⟩ := rfl
        rw [this, ih t]; simp
      · have : ctxWithValue ⟨base, t ++ [(.actor, .actor a), (.system, .sys s)]⟩ (Call.mk ty true kv v false).key v =
            ⟨base, ((Key.user ty true kv, v) :: t) ++ [(.actor, .actor a), (.system, .sys s)]⟩ := rfl
        rw [this, ih]; simp [Call.key]
    · have : ctxWithValue ⟨base, t ++ [(.actor, .actor a), (.system, .sys s)]⟩ (Call.mk ty c kv v true).key v =
          ⟨base, t ++ [(.actor, .actor a), (.system, .sys s)]⟩ := rfl
      rw [this, ih t]; simp

theorem look_skip {base : Key → Option Val} {k : Key} {t u : List (Key × Val)} (h : ∀ x ∈ t, eq x.1 k = some false) :
    look base k (t ++ u) = look base k u := by
  induction t with
  | nil => rfl
  | cons x t ih =>
    simp only [List.cons_append, look, h x List.mem_cons_self]
    exact ih (fun y hy => h y (List.mem_cons_of_mem _ hy))

theorem last_append (k : Key) (xs ys : List Call) : last k (xs ++ ys) = (last k ys).or (last k xs) := by
  induction xs with
  | nil => simp [last]
  | cons x xs ih => simp only [List.cons_append, last, ih, Option.or_assoc]

/-- **C71**, identity: whatever the calls, with whatever keys, and whatever the context given to `Init` holds, the
context acts on its own actor and system. -/
theorem C71_identity (base : Key → Option Val) (a s : Nat) (calls : List Call) :
    theActor (after base a s calls) = .ok a ∧ theSystem (after base a s calls) = .ok s := by
  obtain ⟨t, ht, rfl⟩ := after_top base a s calls
  have key : ∀ k, (k = .actor ∨ k = .system) → ∀ x ∈ (calls.filterMap fun x => if x.null = false ∧ x.cmp = true then
      some (x.key, x.value) else none).reverse, eq x.1 k = some false := by
    intro k hk x hx
    simp only [List.mem_reverse, List.mem_filterMap] at hx
    obtain ⟨y, -, hy⟩ := hx
    split at hy
    · rename_i hn
      simp only [Option.some.injEq] at hy
      subst hy
      simp only [Call.key, hn.1]
      rcases hk with rfl | rfl <;> rfl
    · cases hy
  constructor
  · rw [theActor, getValue, ht, look_skip (key _ (.inl rfl))]; rfl
  · rw [theSystem, getValue, ht, look_skip (key _ (.inr rfl))]; rfl

/-- **C71**, values, the part that holds: for an ordinary key `GetValue` returns the last value set, or the one the
actor was created with. What is missing: keys that are nil or of a type that cannot be compared, NaN, and keys whose
comparison panics. -/
theorem C71_value_partial (base : Key → Option Val) (a s : Nat) (calls : List Call) (k : Key) (hk : Plain k)
    (ht : Typed calls k) : LastWins base a s calls k := by
  obtain ⟨ty, n, rfl⟩ := hk
  obtain ⟨t, h1, rfl⟩ := after_top base a s calls
  unfold LastWins getValue
  rw [h1]
  simp only []
  have ht' : ∀ x ∈ calls, x.ty = ty → x.cmp = true := ht ty true _ rfl
  clear h1 ht
  -- from the last call to the first
  suffices h : ∀ xs : List Call, (∀ x ∈ xs, x.ty = ty → x.cmp = true) →
      look base (.user ty true (.plain n)) ((xs.filterMap fun x => if x.null = false ∧ x.cmp = true then
        some (x.key, x.value) else none).reverse ++ [(.actor, .actor a), (.system, .sys s)]) =
      .ok ((last (.user ty true (.plain n)) xs).or (base (.user ty true (.plain n)))) from h calls ht'
  intro xs
  generalize hl : xs.length = l
  induction l generalizing xs with
  | zero =>
    intro _
    obtain rfl := List.length_eq_zero_iff.1 hl
    rfl
  | succ l ih =>
    intro hx
    have hne : xs ≠ [] := by rintro rfl; simp at hl
    rw [← List.dropLast_concat_getLast hne]
    generalize hy : xs.getLast hne = y
    have hyx : y ∈ xs := hy ▸ List.getLast_mem hne
    have hi := ih xs.dropLast (by simp [hl]) (fun x hm => hx x (List.dropLast_subset _ hm))
    rw [last_append, List.filterMap_append, List.reverse_append, List.append_assoc]
    rcases y with ⟨ty', c, kv, v, nl⟩
    have hcy := hx _ hyx
    cases nl
    · cases c
      · have hty : ty' ≠ ty := fun h => by have := hcy h; simp at this
        simpa [last, Call.key, hty] using hi
      · by_cases hty : ty' = ty
        · subst hty
          cases kv with
          | plain m =>
            by_cases hm : m = n
            · subst hm
              simp [last, Call.key, look, eq]
            · simpa [last, Call.key, look, eq, hm] using hi
          | nan => simpa [last, Call.key, look, eq] using hi
          | deep => simpa [last, Call.key, look, eq] using hi
        · simpa [last, Call.key, look, eq, hty] using hi
    · simpa [last, Call.key] using hi

/-- **C71** is violated for a nil key: `WithValue` panics and stores nothing. -/
theorem C71_nil_refuted : ∃ calls : List Call, ¬ LastWins (fun _ => none) 0 0 calls .null :=
  ⟨[⟨0, true, .nan, .user 1, true⟩], by
    intro h
    have : (Res.ok none : Res (Option Val)) = .ok (some (.user 1)) := h
    cases this⟩

/-- **C71** is violated for a NaN: the value is stored and never found. -/
theorem C71_nan_refuted : ∃ calls : List Call, ¬ LastWins (fun _ => none) 0 0 calls (.user 0 true .nan) :=
  ⟨[⟨0, true, .nan, .user 1, false⟩], by
    intro h
    have : (Res.ok none : Res (Option Val)) = .ok (some (.user 1)) := h
    cases this⟩

/-- **C71** is violated for a key with an interface field that holds a slice: `WithValue` accepts it and every
later `GetValue` of the key panics. -/
theorem C71_deep_refuted : ∃ calls : List Call, getValue (after (fun _ => none) 0 0 calls) (.user 0 true .deep) = .panic :=
  ⟨[⟨0, true, .deep, .user 1, false⟩], rfl⟩

/-- Two values under one key, one under another type, and a base context with a value of its own. -/
example : Typed [⟨0, true, .plain 1, .user 1, false⟩, ⟨1, true, .plain 1, .user 2, false⟩, ⟨0, true, .plain 1, .user 3, false⟩]
      (.user 0 true (.plain 1)) ∧
    getValue (after (fun _ => some (.user 9)) 4 5 [⟨0, true, .plain 1, .user 1, false⟩, ⟨1, true, .plain 1, .user 2, false⟩,
      ⟨0, true, .plain 1, .user 3, false⟩]) (.user 0 true (.plain 1)) = .ok (some (.user 3)) ∧
    getValue (after (fun _ => some (.user 9)) 4 5 []) (.user 0 true (.plain 1)) = .ok (some (.user 9)) := by
  refine ⟨?_, rfl, rfl⟩
  intro ty c v he x hx hty
  cases he
  simp at hx
  rcases hx with rfl | rfl | rfl <;> simp_all

end Braid.Context
