import Verif.Loader.Props

/-
Property C85: exactly when an actor sees the options of its builder and no others, and which others stay.
-/
namespace Braid.Loader

/-- **C85**, exactly: an actor sees the options of its builder, its id, its type and no others iff the builders of its type at the
node where it is made have had no options but those that its own builder has. -/
theorem C85_exact {h : List Ev} {s : State} (hr : sys.Run h s) {i : Nat} {ty : String} {f : Opts}
    (hf : s.picks i = some (ty, f)) (n : Nat) (id : String) :
    ∃ ob s' o, Ev.picked i ty ob ∈ h ∧ step s (.register i n id) = some (s', [.made i n id o]) ∧
      ((∀ k, o k = if k = "ActorID" then some id else if k = "ActorTy" then some ty else ob k) ↔
        ∀ k, k ≠ "ActorID" → k ≠ "ActorTy" → ob k = none → s.opts n ty k = none) := by
  obtain ⟨ob, p1, p2, p3⟩ := pick_inv hr i ty f hf
  obtain ⟨s', o, st, -, ho⟩ := C85_seen s i n id ty f hf
  refine ⟨ob, s', o, p1, st, ?_⟩
  constructor
  · intro h k k1 k2 hk
    have := h k
    rw [ho k, if_neg k1, if_neg k1, if_neg k2, p3 k k1 k2, hk, if_pos rfl] at this
    exact this
  · intro h k
    rw [ho k]
    by_cases k1 : k = "ActorID"
    · rw [if_pos k1, if_pos k1]
    · rw [if_neg k1, if_neg k1]
      by_cases k2 : k = "ActorTy"
      · subst k2; simp [p2]
      · rw [if_neg k2, p3 k k1 k2]
        by_cases hk : ob k = none
        · rw [if_pos hk, h k k1 k2 hk, hk]
        · rw [if_neg hk]

/-- The options of a type at a node stay. -/
theorem opts_stay {s s' : State} {a : Act} {evs : List Ev} (hs : step s a = some (s', evs)) (n : Nat) (ty k : String)
    (h : s.opts n ty k ≠ none) : s'.opts n ty k ≠ none := by
  cases a with
  | withOpt m ty' k' v =>
    simp only [step, Option.some.injEq, Prod.mk.injEq] at hs
    obtain ⟨rfl, rfl⟩ := hs
    by_cases h1 : n = m
    · subst h1
      by_cases h2 : ty = ty'
      · subst h2
        by_cases h3 : k = k'
        · subst h3; simp
        · simpa [upd_of_ne _ _ h3] using h
      · simpa [upd_of_ne _ _ h2] using h
    · simpa [upd_of_ne _ _ h1] using h
  | pick m ty' id =>
    simp only [step, Option.some.injEq, Prod.mk.injEq] at hs
    obtain ⟨rfl, rfl⟩ := hs
    exact h
  | register i m id =>
    simp only [step] at hs
    split at hs
    · cases hs
    · rename_i ty' f hf
      simp only [Option.some.injEq, Prod.mk.injEq] at hs
      obtain ⟨rfl, rfl⟩ := hs
      by_cases h1 : n = m
      · subst h1
        by_cases h2 : ty = ty'
        · subst h2
          intro e
          simp only [upd_same, over, Option.or_eq_none_iff] at e
          exact h e.2
        · simpa [upd_of_ne _ _ h2] using h
      · simpa [upd_of_ne _ _ h1] using h

/-- What an actor has seen at a node, the builders of its type there have from then on. -/
theorem made_stay {h : List Ev} {s : State} (hr : sys.Run h s) : ∀ i n id o, Ev.made i n id o ∈ h →
    ∃ ty, o "ActorTy" = some ty ∧ ∀ k, o k ≠ none → s.opts n ty k ≠ none := by
  refine Lts.Run.invariant (M := sys) (P := fun h s => sys.Run h s → ∀ i n id o, Ev.made i n id o ∈ h →
    ∃ ty, o "ActorTy" = some ty ∧ ∀ k, o k ≠ none → s.opts n ty k ≠ none) ?_ ?_ hr hr
  · intro _ i n id o hm; cases hm
  · intro h s a s' evs r0 hi hs _ i n id o hm
    replace hs : step s a = some (s', evs) := hs
    rcases List.mem_append.1 hm with hm | hm
    · obtain ⟨ty, h1, h2⟩ := hi r0 i n id o hm
      exact ⟨ty, h1, fun k hk => opts_stay hs n ty k (h2 k hk)⟩
    · cases a with
      | withOpt m ty' k' v =>
        simp only [step, Option.some.injEq, Prod.mk.injEq] at hs
        obtain ⟨rfl, rfl⟩ := hs
        cases hm
      | pick m ty' id =>
        simp only [step, Option.some.injEq, Prod.mk.injEq] at hs
        obtain ⟨rfl, rfl⟩ := hs
        simp at hm
      | register j m id' =>
        cases hf : s.picks j with
        | none => simp [step, hf] at hs
        | some x =>
          obtain ⟨ty, f⟩ := x
          obtain ⟨ob, p1, p2, p3⟩ := pick_inv r0 j ty f hf
          obtain ⟨s1, o1, st, e1, ho⟩ := C85_seen s j m id' ty f hf
          rw [st] at hs
          simp only [Option.some.injEq, Prod.mk.injEq] at hs
          obtain ⟨rfl, rfl⟩ := hs
          simp only [List.mem_singleton, Ev.made.injEq] at hm
          obtain ⟨rfl, rfl, rfl, rfl⟩ := hm
          refine ⟨ty, ?_, fun k hk => by rw [e1]; exact hk⟩
          rw [ho]; simp [p2]

/-- **C85** is violated for good: once an actor of a type was made at a node with an option, every later actor of the type made
there sees this option too, whatever its own builder has and whatever happens in between. -/
theorem C85_for_ever_refuted {h : List Ev} {s : State} (hr : sys.Run h s) {i n : Nat} {id : String} {o : Opts} {ty k : String}
    (hm : Ev.made i n id o ∈ h) (hty : o "ActorTy" = some ty) (hk : o k ≠ none) {j : Nat} {f : Opts}
    (hf : s.picks j = some (ty, f)) (id' : String) :
    ∃ s' o', step s (.register j n id') = some (s', [.made j n id' o']) ∧ o' k ≠ none := by
  obtain ⟨ty', t1, t2⟩ := made_stay hr i n id o hm
  rw [hty] at t1; cases t1
  obtain ⟨s', o', st, -, ho⟩ := C85_seen s j n id' ty f hf
  refine ⟨s', o', st, ?_⟩
  rw [ho k]
  by_cases k1 : k = "ActorID"
  · simp [k1]
  · rw [if_neg k1]
    by_cases k2 : f k = none
    · rw [if_pos k2]; exact t2 k hk
    · rw [if_neg k2]; exact k2

/-- An actor with an option was made at node 1, and a pick without options is on its way. -/
example : ∃ h s o f, sys.Run h s ∧ Ev.made 0 1 "n1_a" o ∈ h ∧ o "ActorTy" = some "ty" ∧ o "k" ≠ none ∧
    s.picks 1 = some ("ty", f) ∧ f "k" = none := by
  have hr := Lts.run_of_exec (M := sys) (as := [.withOpt 0 "ty" "k" "v", .pick 0 "ty" "a", .register 0 1 "n1_a",
    .pick 2 "ty" "b"]) rfl
  exact ⟨_, _, _, _, hr, List.mem_cons_of_mem _ List.mem_cons_self, by decide, by decide, rfl, by decide⟩

end Braid.Loader
