import Verif.Events.Spec

namespace Braid.Events

theorem find_append (cs : List (String × Nat)) (e : String) (f : Nat) (ev : String) :
    find (cs ++ [(e, f)]) ev = (find cs ev).or (if e = ev then some f else none) := by
  simp only [find, List.find?_append, List.find?_singleton]
  cases h : cs.find? (·.1 = ev) <;> simp <;> split <;> simp_all

theorem find_onEvent (cs : List (String × Nat)) (e : String) (f : Nat) (ev : String) :
    find (onEvent cs e f).1 ev = (find cs ev).or (if e = ev then some f else none) := by
  unfold onEvent
  split
  · rename_i h
    split
    · rename_i he; subst he
      cases hf : find cs e <;> simp_all
    · cases find cs ev <;> rfl
  · exact find_append ..

theorem first_append (ev : String) (h : List Ev) (es : List Ev) :
    first ev (h ++ es) = (first ev h).or (first ev es) := by
  simp [first, List.findSome?_append]

theorem first_single (ev : String) (e : Ev) : first ev [e] = offer ev e := by
  simp [first, List.findSome?_cons]; cases offer ev e <;> rfl

structure Inv (h : List Ev) (s : State) : Prop where
  chains : ∀ ev, find s.chains ev = first ev h
  queue : pushes h = taken h ++ s.q

theorem inv_run {h : List Ev} {s : State} (hr : sys.Run h s) : Inv h s := by
  refine hr.invariant (P := Inv) ⟨fun ev => rfl, rfl⟩ ?_
  intro h s a s' evs hr i hs
  replace hs : step s a = some (s', evs) := hs
  cases a with
  | onEvent e f =>
    simp only [step, Option.some.injEq, Prod.mk.injEq] at hs
    obtain ⟨rfl, rfl⟩ := hs
    refine ⟨fun ev => ?_, ?_⟩
    · rw [first_append, first_single, ← i.chains ev]; exact find_onEvent ..
    · simpa [pushes, taken] using i.queue
  | sub t c f ok =>
    simp only [step, Option.some.injEq, Prod.mk.injEq] at hs
    obtain ⟨rfl, rfl⟩ := hs
    refine ⟨fun ev => ?_, ?_⟩
    · rw [first_append, first_single, ← i.chains ev]
      unfold sub
      cases ok
      · simp [offer]
      · simpa [offer] using find_onEvent ..
    · simpa [pushes, taken] using i.queue
  | push m =>
    simp only [step, Option.some.injEq, Prod.mk.injEq] at hs
    obtain ⟨rfl, rfl⟩ := hs
    refine ⟨fun ev => ?_, ?_⟩
    · rw [first_append, first_single, ← i.chains ev]; simp [offer]
    · have := i.queue
      simp only [pushes, taken, List.filterMap_append] at this ⊢
      simp [this]
  | dispatch =>
    simp only [step] at hs
    split at hs
    · cases hs
    · rename_i m q hq
      have iq := i.queue
      split at hs <;> (simp only [Option.some.injEq, Prod.mk.injEq] at hs; obtain ⟨rfl, rfl⟩ := hs)
      all_goals
        refine ⟨fun ev => ?_, ?_⟩
        · rw [first_append, first_single, ← i.chains ev]; simp [offer]
        · simp only [pushes, taken, List.filterMap_append] at iq ⊢
          simp [iq, hq]

end Braid.Events
