import Verif.Timer.Props

/-
C18: callers of `Stop`, `CancelTimer` and `Reset` get an answer.
-/
namespace Braid.Timer

/-- How often `Stop` of timer `t` has returned to caller `u`. -/
def stopRets (u t : Nat) (h : List Ev) : Nat := h.count (.stopRet u t true) + h.count (.stopRet u t false)

/-- How often `Reset` of timer `t` has returned to caller `u`. -/
def resetRets (u t : Nat) (h : List Ev) : Nat := h.count (.resetRet u t true) + h.count (.resetRet u t false)

def inStop (t : Nat) : UPc → Nat
  | .stop t' => if t' = t then 1 else 0
  | .stop2 t' => if t' = t then 1 else 0
  | .stop3 t' => if t' = t then 1 else 0
  | _ => 0

def inReset (t : Nat) : UPc → Nat
  | .reset t' _ => if t' = t then 1 else 0
  | .reset2 t' => if t' = t then 1 else 0
  | .reset3 t' => if t' = t then 1 else 0
  | _ => 0

theorem calls_run {h : List Ev} {s : State} (hr : sys.Run h s) (u t : Nat) : s.crashed = false →
    h.count (.stopCall u t) = stopRets u t h + inStop t (s.usr u) ∧
    h.countP (fun | .resetCall v t' _ => v = u ∧ t' = t | _ => false) = resetRets u t h + inReset t (s.usr u) := by
  refine hr.invariant (P := fun h s => s.crashed = false →
    h.count (.stopCall u t) = stopRets u t h + inStop t (s.usr u) ∧
    h.countP (fun | .resetCall v t' _ => v = u ∧ t' = t | _ => false) = resetRets u t h + inReset t (s.usr u)) ?_ ?_
  · intro _; simp [stopRets, resetRets, inStop, inReset, sys, init]
  intro h s a s' evs _ hi hs hc
  replace hs : step s a = some (s', evs) := hs
  simp only [step] at hs
  split at hs
  · cases hs
  rename_i hc0
  have hi := hi (by simpa using hc0)
  simp only [stopRets, resetRets, List.count_append, List.countP_append] at hi ⊢
  cases a <;> simp only [stepG, stepU] at hs <;> repeat' (split at hs)
  all_goals first | (cases hs; done) | skip
  all_goals (cases hs)
  all_goals simp only [setT, setU, upd_apply, List.count_cons, List.countP_cons, List.count_nil, List.countP_nil] at hc hi ⊢
  all_goals first
    | (simpa using hi)
    | grind [inStop, inReset]

/-- C18: as long as nothing crashes, `Stop` (which `CancelTimer` calls) and `Reset` return once for each call, also if
any number of goroutines call them: a goroutine that is in none of its calls has an answer to each. -/
theorem C18_answered {h : List Ev} {s : State} (hr : sys.Run h s) (hc : s.crashed = false) {u : Nat}
    (hu : s.usr u = .idle) (t : Nat) :
    h.count (.stopCall u t) = stopRets u t h ∧
    h.countP (fun | .resetCall v t' _ => v = u ∧ t' = t | _ => false) = resetRets u t h := by
  have := calls_run hr u t hc
  rwa [hu] at this

/-- The number of steps a caller has left at most. -/
def stepsLeft : UPc → Nat
  | .idle => 0
  | .stop _ => 3
  | .stop2 _ => 2
  | .stop3 _ => 1
  | .reset _ _ => 3
  | .reset2 _ => 2
  | .reset3 _ => 1

theorem usr_step {s : State} {u : Nat} (hc : s.crashed = false) (hu : s.usr u ≠ .idle) :
    ∃ s' k, step s (.usr u) = some (s', k) ∧ (s'.crashed = true ∨ stepsLeft (s'.usr u) < stepsLeft (s.usr u)) := by
  simp only [step, hc, stepU]
  cases hp : s.usr u <;> simp only [Bool.false_eq_true, if_false] <;> (try (exact absurd hp hu)) <;> repeat' split
  all_goals refine ⟨_, _, rfl, ?_⟩
  all_goals simp [setU, setT, stepsLeft, hc]

/-- C18: `Stop`, `CancelTimer` and `Reset` never wait: at any moment, whatever the timers and other callers do, a call
ends within three steps of its own (it returns, or the process crashes). -/
theorem C18_never_waits (s : State) (hc : s.crashed = false) (u : Nat) :
    ∃ n s' k, n ≤ 3 ∧ sys.exec s (List.replicate n (.usr u)) = some (s', k) ∧ (s'.usr u = .idle ∨ s'.crashed = true) := by
  have aux : ∀ m s, s.crashed = false → stepsLeft (s.usr u) ≤ m →
      ∃ n s' k, n ≤ m ∧ sys.exec s (List.replicate n (.usr u)) = some (s', k) ∧
        (s'.usr u = .idle ∨ s'.crashed = true) := by
    intro m
    induction m with
    | zero =>
      intro s _ h
      refine ⟨0, s, [], by omega, rfl, .inl ?_⟩
      cases hp : s.usr u <;> rw [hp] at h <;> first | rfl | (simp [stepsLeft] at h)
    | succ m ih =>
      intro s hc h
      by_cases hu : s.usr u = .idle
      · exact ⟨0, s, [], by omega, rfl, .inl hu⟩
      · obtain ⟨s1, k1, hs, h1⟩ := usr_step hc hu
        have hx : ∀ n, sys.exec s (List.replicate (n + 1) (.usr u)) =
            (sys.exec s1 (List.replicate n (.usr u))).map fun p => (p.1, k1 ++ p.2) := by
          intro n
          rw [List.replicate_succ]
          have : sys.step s (.usr u) = some (s1, k1) := hs
          simp only [Lts.exec, this]
          cases sys.exec s1 (List.replicate n (.usr u)) <;> rfl
        cases hc1 : s1.crashed with
        | true => exact ⟨1, s1, k1, by omega, by rw [hx 0]; simp [Lts.exec], .inr hc1⟩
        | false =>
          obtain ⟨n, s', k, hn, he, hf⟩ := ih s1 hc1 (by have := h1.resolve_left (by simp [hc1]); omega)
          exact ⟨n + 1, s', k1 ++ k, by omega, by rw [hx n, he]; rfl, hf⟩
  exact aux 3 s hc (by cases s.usr u <;> simp [stepsLeft])

/-- The example: a timer is stopped twice; the second call returns false. -/
example : ∃ h s, sys.Run h s ∧ s.crashed = false ∧ s.usr 5 = .idle ∧ h.count (.stopCall 5 0) = 2 ∧
    h.count (.stopRet 5 0 true) = 1 ∧ h.count (.stopRet 5 0 false) = 1 := by
  refine ⟨_, _, Lts.run_of_exec (M := sys) (as := [.onTimer 0 2, .g 0 false, .stop 5 0, .usr 5, .usr 5, .usr 5,
    .stop 5 0, .usr 5]) rfl, rfl, rfl, by decide, by decide, by decide⟩

end Braid.Timer
