/-
Labelled transition systems with an observable history.

A component is an initial state and an executable step function: `step s a = none` means that
action `a` is not enabled in `s`; `step s a = some (s', evs)` means that it leads to `s'` and emits
the observable events `evs`.
-/
namespace Braid

/-- Point update of a function (heap cell, program counter table, ...). -/
def upd {α β : Type} [DecidableEq α] (f : α → β) (a : α) (b : β) : α → β :=
  fun x => if x = a then b else f x

@[simp] theorem upd_same {α β : Type} [DecidableEq α] (f : α → β) (a : α) (b : β) :
    upd f a b a = b := by simp [upd]

theorem upd_of_ne {α β : Type} [DecidableEq α] (f : α → β) {a x : α} (b : β) (h : x ≠ a) :
    upd f a b x = f x := by simp [upd, h]

theorem upd_apply {α β : Type} [DecidableEq α] (f : α → β) (a x : α) (b : β) :
    upd f a b x = if x = a then b else f x := rfl

/-- A labelled transition system with states `S`, actions `A` and observable events `E`. -/
structure Lts (S A E : Type) where
  init : S
  step : S → A → Option (S × List E)

namespace Lts
variable {S A E : Type} (M : Lts S A E)

/-- `M.Run h s`: some execution from the initial state ends in `s` and emits the history `h`. -/
inductive Run : List E → S → Prop
  | init : Run [] M.init
  | step {h s a s' evs} : Run h s → M.step s a = some (s', evs) → Run (h ++ evs) s'

/-- Executes a list of actions from a state. -/
def exec : S → List A → Option (S × List E)
  | s, [] => some (s, [])
  | s, a :: as =>
    match M.step s a with
    | none => none
    | some (s', e) =>
      match exec s' as with
      | none => none
      | some (s'', es) => some (s'', e ++ es)

variable {M}

theorem exec_cons {s : S} {a : A} {as : List A} {s1 s2 : S} {e1 e2 : List E}
    (h1 : M.step s a = some (s1, e1)) (h2 : M.exec s1 as = some (s2, e2)) :
    M.exec s (a :: as) = some (s2, e1 ++ e2) := by
  simp [exec, h1, h2]

theorem exec_append {s s1 s2 : S} {as bs : List A} {e1 e2 : List E}
    (h1 : M.exec s as = some (s1, e1)) (h2 : M.exec s1 bs = some (s2, e2)) :
    M.exec s (as ++ bs) = some (s2, e1 ++ e2) := by
  induction as generalizing s e1 with
  | nil => simp [exec] at h1; obtain ⟨rfl, rfl⟩ := h1; simpa using h2
  | cons a as ih =>
    simp only [exec] at h1
    split at h1
    · cases h1
    · rename_i s' e hs
      split at h1
      · cases h1
      · rename_i s'' es he
        simp only [Option.some.injEq, Prod.mk.injEq] at h1
        obtain ⟨rfl, rfl⟩ := h1
        have := ih he
        simp [exec, hs, this, List.append_assoc]

theorem Run.exec {h : List E} {s s' : S} {as : List A} {es : List E}
    (hr : M.Run h s) (he : M.exec s as = some (s', es)) : M.Run (h ++ es) s' := by
  induction as generalizing h s es with
  | nil => simp [Lts.exec] at he; obtain ⟨rfl, rfl⟩ := he; simpa using hr
  | cons a as ih =>
    simp only [Lts.exec] at he
    split at he
    · cases he
    · rename_i s1 e1 hs
      split at he
      · cases he
      · rename_i s2 e2 he2
        simp only [Option.some.injEq, Prod.mk.injEq] at he
        obtain ⟨rfl, rfl⟩ := he
        have := ih (hr.step hs) he2
        simpa [List.append_assoc] using this

/-- The run given by executing a list of actions from the initial state. -/
theorem run_of_exec {s' : S} {as : List A} {es : List E}
    (he : M.exec M.init as = some (s', es)) : M.Run es s' := by
  simpa using Run.init.exec he

/-- Every execution is the execution of some action list. -/
theorem Run.exists_exec {h : List E} {s : S} (hr : M.Run h s) :
    ∃ as, M.exec M.init as = some (s, h) := by
  induction hr with
  | init => exact ⟨[], rfl⟩
  | @step h s a s' evs _ hs ih =>
    obtain ⟨as, has⟩ := ih
    refine ⟨as ++ [a], ?_⟩
    have := exec_append (M := M) has (bs := [a]) (s2 := s') (e2 := evs) (by simp [Lts.exec, hs])
    simpa using this

/-- A state invariant that may also speak about the history. -/
theorem Run.invariant {P : List E → S → Prop} (hinit : P [] M.init)
    (hstep : ∀ h s a s' evs, M.Run h s → P h s → M.step s a = some (s', evs) → P (h ++ evs) s')
    {h : List E} {s : S} (hr : M.Run h s) : P h s := by
  induction hr with
  | init => exact hinit
  | step hr hs ih => exact hstep _ _ _ _ _ hr ih hs

/-- The step that emitted an event of the history. -/
theorem Run.split {h : List E} {s : S} (hr : M.Run h s) {e : E} (he : e ∈ h) :
    ∃ h0 s0 a s1 evs rest, M.Run h0 s0 ∧ M.step s0 a = some (s1, evs) ∧ e ∈ evs ∧
      h = h0 ++ evs ++ rest := by
  induction hr with
  | init => cases he
  | @step h s a s' evs hr hs ih =>
    rcases List.mem_append.1 he with he | he
    · obtain ⟨h0, s0, a0, s1, ev0, rest, r0, st0, m0, eq0⟩ := ih he
      exact ⟨h0, s0, a0, s1, ev0, rest ++ evs, r0, st0, m0, by rw [eq0]; simp⟩
    · exact ⟨h, s, a, s', evs, [], hr, hs, he, by simp⟩

theorem exec_concat {s s1 s2 : S} {as : List A} {a : A} {e1 e2 : List E}
    (h1 : M.exec s as = some (s1, e1)) (h2 : M.step s1 a = some (s2, e2)) :
    M.exec s (as ++ [a]) = some (s2, e1 ++ e2) :=
  exec_append h1 (by simp [exec, h2])

/-- The step that emitted the event at a given place of the history, and the execution after it. -/
theorem Run.split_at {h : List E} {s : S} (hr : M.Run h s) {h1 h2 : List E} {e : E}
    (he : h = h1 ++ e :: h2) :
    ∃ h0 s0 a s1 pre post as rest, M.Run h0 s0 ∧ M.step s0 a = some (s1, pre ++ e :: post) ∧
      h1 = h0 ++ pre ∧ h2 = post ++ rest ∧ M.exec s1 as = some (s, rest) := by
  induction hr generalizing h2 with
  | init => simp at he
  | @step h s a s' evs hr hs ih =>
    rcases List.append_eq_append_iff.1 he with ⟨pre, rfl, h4⟩ | ⟨t, h3, h4⟩
    · exact ⟨h, s, a, s', pre, h2, [], [], hr, by rw [← h4]; exact hs, rfl, by simp, rfl⟩
    · cases t with
      | nil =>
        simp only [List.append_nil] at h3
        simp only [List.nil_append] at h4
        subst h3
        exact ⟨h, s, a, s', [], h2, [], [], hr, by rw [List.nil_append, h4]; exact hs, by simp, by simp, rfl⟩
      | cons x t =>
        simp only [List.cons_append, List.cons.injEq] at h4
        obtain ⟨rfl, rfl⟩ := h4
        obtain ⟨h0, s0, a0, s1, pre, post, as, rest, r0, st0, e1, e2, ex⟩ := ih h3
        exact ⟨h0, s0, a0, s1, pre, post, as ++ [a], rest ++ evs, r0, st0, e1,
          by rw [e2, List.append_assoc], exec_concat ex hs⟩

end Lts

/-- `x` occurs before `y` in the list. -/
def Before {α : Type} (l : List α) (x y : α) : Prop := List.Sublist [x, y] l

theorem before_append_singleton {α : Type} {l : List α} {x y e : α} :
    Before (l ++ [e]) x y ↔ Before l x y ∨ (x ∈ l ∧ y = e) := by
  unfold Before
  constructor
  · intro h
    rw [List.sublist_append_iff] at h
    obtain ⟨l1, l2, hl, h1, h2⟩ := h
    match l1, l2, hl with
    | [], _, hl =>
      simp at hl; subst hl
      have := h2.length_le; simp at this
    | [a], l2, hl =>
      simp at hl
      obtain ⟨rfl, rfl⟩ := hl
      simp at h1 h2
      exact Or.inr ⟨h1, h2⟩
    | [a, b], l2, hl =>
      simp at hl
      obtain ⟨rfl, rfl, rfl⟩ := hl
      exact Or.inl h1
    | a :: b :: c :: t, l2, hl => simp at hl
  · rintro (h | ⟨h, rfl⟩)
    · exact h.trans (List.sublist_append_left _ _)
    · have := List.Sublist.append (List.singleton_sublist.2 h) (List.Sublist.refl [y])
      simpa using this

theorem before_nil {α : Type} {x y : α} : ¬ Before [] x y := by
  intro h; have := h.length_le; simp at this

theorem Before.mem_left {α : Type} {l : List α} {x y : α} (h : Before l x y) : x ∈ l :=
  h.subset (by simp)

theorem Before.mem_right {α : Type} {l : List α} {x y : α} (h : Before l x y) : y ∈ l :=
  h.subset (by simp)

/-- A duplicate-free list has each value at one index only. -/
theorem nodup_idx {α : Type} {l : List α} (hn : l.Nodup) {i j : Nat} {a : α}
    (hi : l[i]? = some a) (hj : l[j]? = some a) : i = j := by
  have hn := List.pairwise_iff_getElem.1 hn
  obtain ⟨l1, e1⟩ := List.getElem?_eq_some_iff.1 hi
  obtain ⟨l2, e2⟩ := List.getElem?_eq_some_iff.1 hj
  rcases Nat.lt_trichotomy i j with h | h | h
  · exact absurd (e1.trans e2.symm) (hn i j l1 l2 h)
  · exact h
  · exact absurd (e2.trans e1.symm) (hn j i l2 l1 h)

end Braid
