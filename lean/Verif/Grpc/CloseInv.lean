import Verif.Grpc.Close

/-
Invariant of the model of `closeconn` (`Close.lean`).
-/
namespace Braid.Grpc.Close

/-- The answers of call `g`, in their order. -/
def answers (g : Nat) (h : List Ev) : List Res :=
  h.filterMap fun e => match e with
    | .answered g' r => if g' = g then some r else none
    | _ => none

theorem answers_append (g : Nat) (h1 h2 : List Ev) : answers g (h1 ++ h2) = answers g h1 ++ answers g h2 := by
  simp [answers]

theorem answers_nil (g : Nat) : answers g [] = [] := rfl

theorem answers_started (g x : Nat) : answers g [.started x] = [] := rfl

theorem answers_closed (g x : Nat) (e : Bool) : answers g [.closed x e] = [] := rfl

theorem answers_expired (g x : Nat) : answers g [.expired x] = [] := rfl

theorem answers_answered (g x : Nat) (r : Res) : answers g [.answered x r] = if x = g then [r] else [] := by
  by_cases hx : x = g <;> simp [answers, hx]

theorem answers_both (g x : Nat) (r : Res) : answers g [.answered x r, .ended x] = if x = g then [r] else [] := by
  by_cases hx : x = g <;> simp [answers, hx]

theorem mem_answers {g : Nat} {h : List Ev} {r : Res} : r ∈ answers g h ↔ .answered g r ∈ h := by
  simp only [answers, List.mem_filterMap]
  constructor
  · rintro ⟨e, he, h1⟩
    cases e <;> simp at h1
    obtain ⟨rfl, rfl⟩ := h1
    exact he
  · intro he
    exact ⟨_, he, by simp⟩

/-- What the history says about call `g`, from where its two goroutines are. -/
structure Inv (h : List Ev) (s : State) (g : Nat) : Prop where
  idle : s.main g = .idle ↔ s.worker g = .none
  started : .started g ∈ h ↔ s.main g ≠ .idle
  closing : s.worker g = .closing → ∀ e, .closed g e ∉ h
  none : s.worker g = .none → ∀ e, .closed g e ∉ h
  open_ : s.main g = .idle ∨ s.main g = .waiting → answers g h = []
  shut : ∀ r, s.main g = .answered r → answers g h = [r]
  ended : .ended g ∈ h ↔ s.worker g = .ended
  ended_main : s.worker g = .ended ↔ ∃ e, s.main g = .answered (.closed e)
  closed : ∀ e, .closed g e ∈ h → s.worker g = .sending e ∨ s.worker g = .ended
  sending : ∀ e, s.worker g = .sending e → .closed g e ∈ h
  answered : ∀ e, s.main g = .answered (.closed e) → ∀ e', .closed g e' ∈ h ↔ e' = e
  expired : .expired g ∈ h ↔ s.expired g = true
  timedOut : s.main g = .answered .timedOut → s.expired g = true

theorem inv {h : List Ev} {s : State} (hr : sys.Run h s) (g : Nat) : Inv h s g := by
  refine hr.invariant (P := fun h s => Inv h s g) ?_ ?_
  · constructor <;> simp [sys, init, answers_nil]
  · intro h s a s' evs _ hi hs
    have hI := hi
    obtain ⟨i1, i2, i3, i4, i5, i6, i7, i8, i9, i10, i11, i12, i13⟩ := hi
    cases a with
    | start g' =>
      simp only [sys, step] at hs
      split at hs <;> simp at hs
      rename_i hm
      obtain ⟨rfl, rfl⟩ := hs
      by_cases hg : g = g'
      · subst hg
        have hw := i1.1 hm
        constructor <;> simp_all [answers_append, answers_started, answers_closed, answers_expired, answers_answered]
      · have hg' : ¬ g' = g := fun e => hg e.symm
        constructor
        all_goals simp only [answers_append, answers_started, answers_closed, answers_expired, answers_answered,
          answers_both, upd_of_ne _ _ hg, hg, hg', List.mem_append, List.mem_cons, List.not_mem_nil, Ev.started.injEq,
          Ev.closed.injEq, Ev.expired.injEq, Ev.ended.injEq, reduceCtorEq, if_false, List.append_nil, false_and,
          or_false]
        all_goals assumption
    | close g' e =>
      simp only [sys, step] at hs
      split at hs <;> simp at hs
      rename_i hm
      obtain ⟨rfl, rfl⟩ := hs
      by_cases hg : g = g'
      · subst hg
        constructor <;> simp_all [answers_append, answers_started, answers_closed, answers_expired, answers_answered]
      · have hg' : ¬ g' = g := fun e => hg e.symm
        constructor
        all_goals simp only [answers_append, answers_started, answers_closed, answers_expired, answers_answered,
          answers_both, upd_of_ne _ _ hg, hg, hg', List.mem_append, List.mem_cons, List.not_mem_nil, Ev.started.injEq,
          Ev.closed.injEq, Ev.expired.injEq, Ev.ended.injEq, reduceCtorEq, if_false, List.append_nil, false_and,
          or_false]
        all_goals assumption
    | expire g' =>
      simp only [sys, step] at hs
      split at hs <;> simp at hs
      rename_i hm
      obtain ⟨rfl, rfl⟩ := hs
      by_cases hg : g = g'
      · subst hg
        constructor <;> simp_all [answers_append, answers_started, answers_closed, answers_expired, answers_answered]
      · have hg' : ¬ g' = g := fun e => hg e.symm
        constructor
        all_goals simp only [answers_append, answers_started, answers_closed, answers_expired, answers_answered,
          answers_both, upd_of_ne _ _ hg, hg, hg', List.mem_append, List.mem_cons, List.not_mem_nil, Ev.started.injEq,
          Ev.closed.injEq, Ev.expired.injEq, Ev.ended.injEq, reduceCtorEq, if_false, List.append_nil, false_and,
          or_false]
        all_goals assumption
    | timeout g' =>
      simp only [sys, step] at hs
      split at hs <;> simp at hs
      rename_i hm
      obtain ⟨rfl, rfl⟩ := hs
      by_cases hg : g = g'
      · subst hg
        constructor <;> simp_all [answers_append, answers_started, answers_closed, answers_expired, answers_answered]
      · have hg' : ¬ g' = g := fun e => hg e.symm
        constructor
        all_goals simp only [answers_append, answers_started, answers_closed, answers_expired, answers_answered,
          answers_both, upd_of_ne _ _ hg, hg, hg', List.mem_append, List.mem_cons, List.not_mem_nil, Ev.started.injEq,
          Ev.closed.injEq, Ev.expired.injEq, Ev.ended.injEq, reduceCtorEq, if_false, List.append_nil, false_and,
          or_false]
        all_goals assumption
    | receive g' =>
      simp only [sys, step] at hs
      split at hs <;> simp at hs
      rename_i e hm hw
      obtain ⟨rfl, rfl⟩ := hs
      by_cases hg : g = g'
      · subst hg
        have hc : ∀ e', .closed g e' ∈ h ↔ e' = e := by
          intro e'
          constructor
          · intro h1
            rcases i9 e' h1 with h2 | h2 <;> simp [hw] at h2
            exact h2.symm
          · rintro rfl
            exact i10 _ hw
        constructor <;> simp_all [answers_append, answers_both]
      · have hg' : ¬ g' = g := fun e => hg e.symm
        constructor
        all_goals simp only [answers_append, answers_started, answers_closed, answers_expired, answers_answered,
          answers_both, upd_of_ne _ _ hg, hg, hg', List.mem_append, List.mem_cons, List.not_mem_nil, Ev.started.injEq,
          Ev.closed.injEq, Ev.expired.injEq, Ev.ended.injEq, reduceCtorEq, if_false, List.append_nil, false_and,
          or_false]
        all_goals assumption

/-- Call `g` times out, and then `conn.Close` returns. -/
def lateOne (g : Nat) : List Act := [.start g, .expire g, .timeout g, .close g false]

theorem late_step {h : List Ev} {s : State} (hr : sys.Run h s) {g : Nat} (hg : s.main g = .idle) :
    ∃ s', sys.exec s (lateOne g) = some (s', [.started g, .expired g, .answered g .timedOut, .closed g false]) ∧
      ∀ g', g' ≠ g → s'.main g' = s.main g' := by
  have hi := inv hr g
  have hx : s.expired g = false := by
    cases hx : s.expired g with
    | false => rfl
    | true =>
      exfalso
      obtain ⟨h0, s0, a, s1, evs, rest, r0, st, hm, rfl⟩ := hr.split (hi.expired.2 hx)
      have h1 : .started g ∈ h0 := by
        cases a with
        | expire g' =>
          simp only [sys, step] at st
          split at st <;> simp at st
          rename_i hc
          obtain ⟨rfl, rfl⟩ := st
          simp only [List.mem_singleton, Ev.expired.injEq] at hm
          subst hm
          exact (inv r0 g).started.2 hc.1
        | start g' =>
          simp only [sys, step] at st
          split at st <;> simp at st
          obtain ⟨rfl, rfl⟩ := st
          simp at hm
        | close g' e =>
          simp only [sys, step] at st
          split at st <;> simp at st
          obtain ⟨rfl, rfl⟩ := st
          simp at hm
        | timeout g' =>
          simp only [sys, step] at st
          split at st <;> simp at st
          obtain ⟨rfl, rfl⟩ := st
          simp at hm
        | receive g' =>
          simp only [sys, step] at st
          split at st <;> simp at st
          obtain ⟨rfl, rfl⟩ := st
          simp at hm
      exact hi.started.1 (by simp [h1]) hg
  refine ⟨_, by simp [lateOne, Lts.exec, sys, step, hg, hx]; rfl, ?_⟩
  intro g' hne
  simp [upd_of_ne _ _ hne]

end Braid.Grpc.Close
