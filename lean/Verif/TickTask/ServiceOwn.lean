import Verif.TickTask.ServiceProps

/-
Lemmas for the exact form of C64: which tasks can run, and under which id a task is in the map.
-/
namespace Braid.TimerService

variable (info : Nat → Task)

/-- Only tasks that are set to run are running. -/
def OnlyRun (s : State) : Prop := ∀ t, s.tst t = .run → (info t).isRun = true

theorem onlyRun_start (s : State) (u : Nat) (h : OnlyRun info s) : OnlyRun info (start info s u) := by
  intro t
  unfold start; split
  · exact h t
  · rename_i hr
    split
    · exact h t
    · simp only [upd_apply]; split
      · rename_i e; subst e; intro _; simpa using hr
      · exact h t

theorem onlyRun_stop (s : State) (u : Nat) (h : OnlyRun info s) : OnlyRun info (stop info s u) := by
  intro t
  unfold stop; split
  · exact h t
  · split
    · simp only [upd_apply]; split
      · intro hx; cases hx
      · exact h t
    · exact h t

theorem onlyRun_startAll (order : List String) (s : State) (h : OnlyRun info s) :
    OnlyRun info (startAll info s order).1 := by
  induction order generalizing s with
  | nil => exact h
  | cons id rest ih =>
    simp only [startAll]
    split
    · exact ih s h
    · exact ih _ (onlyRun_start info s _ h)

theorem onlyRun_stopAll (order : List String) (s : State) (h : OnlyRun info s) :
    OnlyRun info (stopAll info s order).1 := by
  induction order generalizing s with
  | nil => exact h
  | cons id rest ih =>
    simp only [stopAll]
    split
    · exact ih s h
    · exact ih _ (onlyRun_stop info s _ h)

theorem onlyRun_step (s : State) (o : Op) (h : OnlyRun info s) : OnlyRun info (step info s o).1 := by
  cases o with
  | add u => exact h
  | remove i => exact h
  | startTask i =>
    simp only [step]; split
    · exact h
    · exact onlyRun_start info s _ h
  | stopTask i =>
    simp only [step]; split
    · exact h
    · exact onlyRun_stop info s _ h
  | stop i =>
    simp only [step]; split
    · exact h
    · exact onlyRun_stop info s _ h
  | startAll l => exact onlyRun_startAll info l s h
  | stopAll l => exact onlyRun_stopAll info l s h

theorem onlyRun_exec (ops : List Op) (s : State) (h : OnlyRun info s) : OnlyRun info (exec info s ops) := by
  induction ops generalizing s with
  | nil => exact h
  | cons o ops ih => exact ih _ (onlyRun_step info s o h)

theorem onlyRun_init : OnlyRun info init := by intro t h; cases h

/-- A task owns at most its own id. -/
theorem owner_id (ops : List Op) (id : String) (t : Nat) (h : owner info ops id = some t) : (info t).id = id := by
  unfold owner at h
  cases hf : ops.reverse.findSome? (says info id) with
  | none => simp [hf] at h
  | some x =>
    simp only [hf, Option.getD_some] at h
    subst h
    obtain ⟨o, _, ho⟩ := List.exists_of_findSome?_eq_some hf
    cases o <;> simp [says] at ho
    obtain ⟨h1, h2⟩ := ho
    subst h2; exact h1

end Braid.TimerService
