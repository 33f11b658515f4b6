import Verif.TickTask.Leak
import Verif.TickTask.Props

/-
C114: what becomes of the goroutines of stopped tasks.
-/
namespace Braid.TickTask

/-- **C114**, the full statement: when a task is at rest (nothing is left to do for any of its goroutines, and no delay is
running), it has no goroutine left. -/
def RestIsGone (c : Cfg) : Prop :=
  ∀ h s, (sys c).Run h s → AtRest s → ∀ l, s.loop l = .off

/-- **C114**, the part that holds: a task that was never started has no goroutine. What is missing: all others. -/
theorem C114_never_started_partial (c : Cfg) {h : List Ev} {s : State} (hr : (sys c).Run h s) (h0 : starts h = 0)
    (hp : panics h = 0) (l : Nat) : s.loop l = .off := by
  have i := inv_run hr
  have := i.tot
  exact i.off l (by omega)

/-- **C114** fails as badly as it can: no goroutine of a task ever ends, whatever its callers do. -/
theorem C114_never_ends (c : Cfg) {h : List Ev} {s s' : State} {as : List Act} {evs : List Ev} (hr : (sys c).Run h s)
    (he : (sys c).exec s as = some (s', evs)) {l : Nat} (hl : s.loop l ≠ .off) : s'.loop l ≠ .off := by
  refine (alive_exec he hl ?_).1
  apply Decidable.byContradiction
  intro hn
  exact hl ((inv_run hr).off l (by omega))

/-- **C114**, the number of goroutines left: a task at rest has exactly one goroutine for each effective start and each
panic so far. All of them wait at a stopped ticker, and go on waiting there whatever happens later, also when the task is
started again. -/
theorem C114_exact (c : Cfg) {h : List Ev} {s : State} (hr : (sys c).Run h s) (ha : AtRest s) :
    (∀ l, s.loop l ≠ .off ↔ l < starts h + panics h) ∧
    ∀ l, l < starts h + panics h → ∃ k, s.loop l = .recv k ∧
      ∀ as s' evs, (sys c).exec s as = some (s', evs) → s'.loop l = .recv k ∧ s'.tk k = ⟨true, false⟩ := by
  have i := inv_run hr
  have hcr : cnt s.loop s.nloop isRec = 0 := by
    refine cnt_none _ fun l _ => ?_
    rcases ha.2 l with h | ⟨k, h, _⟩ <;> rw [h] <;> rfl
  have hcm : cnt s.loop s.nloop isMake = 0 := by
    refine cnt_none _ fun l _ => ?_
    rcases ha.2 l with h | ⟨k, h, _⟩ <;> rw [h] <;> rfl
  have htot := i.tot
  have hd := ha.1
  have hn : s.nloop = starts h + panics h := by omega
  have hall := all_there hr
  refine ⟨fun l => ⟨fun hl => ?_, fun hl => hall l (by omega)⟩, fun l hl => ?_⟩
  · apply Decidable.byContradiction
    intro hx
    exact hl (i.off l (by omega))
  · rcases ha.2 l with h1 | ⟨k, h1, h2⟩
    · exact absurd h1 (hall l (by omega))
    · refine ⟨k, h1, fun as s' evs he => ?_⟩
      obtain ⟨a, b, _⟩ := stuck_exec he (l := l) (k := k) ⟨h1, h2, i.recv l k h1, by omega⟩
      exact ⟨a, b⟩

/-- **C114** is violated, and without any bound: for every `n` a task can be started and stopped `n` times, each time
calling its handler once, each call after the one before has returned, and has `n` goroutines left at rest. -/
theorem C114_refuted : ¬ RestIsGone usual ∧
    ∀ n, ∃ h s, (sys usual).Run h s ∧ AtRest s ∧ starts h = n ∧ stops h = n ∧ begins h = n ∧ panics h = 0 ∧
      ∀ l, s.loop l ≠ .off ↔ l < n := by
  have key : ∀ n, ∃ h s, (sys usual).Run h s ∧ AtRest s ∧ starts h = n ∧ stops h = n ∧ begins h = n ∧ panics h = 0 ∧
      ∀ l, s.loop l ≠ .off ↔ l < n := by
    intro n
    obtain ⟨s, r, z⟩ := cycles_run n
    obtain ⟨h1, h2, h3, h4, h5⟩ := cycles_counts n
    refine ⟨_, s, r, z.atRest, h1, h2, h3, h5, ?_⟩
    have := (C114_exact _ r z.atRest).1
    rw [h1, h5] at this
    exact this
  refine ⟨fun hx => ?_, key⟩
  obtain ⟨h, s, r, a, _, _, _, _, hl⟩ := key 1
  exact (hl 0).2 (by omega) (hx h s r a 0)

/-- A task whose handler panicked once, at rest after a stop: two goroutines are left. -/
example : ∃ h s, (sys usual).Run h s ∧ AtRest s ∧ starts h = 1 ∧ panics h = 1 := by
  refine ⟨_, _, Lts.run_of_exec (M := sys usual)
    (as := startActs ++ [.loop 0 false false, .loop 0 false false, .loop 0 true false, .loop 0 false false,
      .loop 1 false false, .loop 1 false false, .loop 1 false false, .loop 1 false false, .loop 1 false false,
      .loop 0 false false] ++ stopActs) rfl, ?_, rfl, rfl⟩
  refine ⟨rfl, ?_⟩
  rintro (_ | _ | l)
  · exact .inr ⟨1, rfl, rfl⟩
  · exact .inr ⟨1, rfl, rfl⟩
  · exact .inl rfl

/-- A task that was never started, although a stop was called. -/
example : ∃ h s, (sys usual).Run h s ∧ starts h = 0 ∧ panics h = 0 ∧ h ≠ [] :=
  ⟨_, _, Lts.run_of_exec (M := sys usual) (as := [.callStop 0, .client 0]) rfl, rfl, rfl, by simp⟩

end Braid.TickTask
