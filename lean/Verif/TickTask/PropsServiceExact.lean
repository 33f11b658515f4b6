import Verif.TickTask.ServiceOwn

/-
Property C64: exactly which running tasks the service can still stop. The theorems quantify over all tables of
tasks, all tasks, all sequences of calls so far and all later ones.
-/
namespace Braid.TimerService

variable (info : Nat → Task)

/-- **C64**, exactly: a task that runs can be stopped by some sequence of calls of the service that does not
add it again if and only if it is the task that was added under its id last and not removed since. If it is,
each of `Stop` and `StopTask` with its id does so at once. -/
theorem C64_stoppable_exact (ops : List Op) (t : Nat) (hrun : (exec info init ops).tst t = .run) :
    ((∃ more, Op.add t ∉ more ∧ (exec info init (ops ++ more)).tst t ≠ .run) ↔
      owner info ops (info t).id = some t) ∧
    (owner info ops (info t).id = some t →
      (exec info init (ops ++ [.stop (info t).id])).tst t = .stop ∧
      (exec info init (ops ++ [.stopTask (info t).id])).tst t = .stop) := by
  have hstop : owner info ops (info t).id = some t →
      (exec info init (ops ++ [.stop (info t).id])).tst t = .stop ∧
      (exec info init (ops ++ [.stopTask (info t).id])).tst t = .stop := by
    intro ho
    have hr : (info t).isRun = true := onlyRun_exec info ops init (onlyRun_init info) t hrun
    rw [← tmap_owner] at ho
    rw [exec_append, exec_append]
    simp [exec, step, ho, stop, hr, hrun]
  refine ⟨⟨?_, ?_⟩, hstop⟩
  · rintro ⟨more, hm, hne⟩
    refine Classical.byContradiction fun hno => ?_
    refine hne ?_
    rw [exec_append]
    refine orphan_exec info more _ t ?_ hrun hm
    intro id hid
    rw [tmap_owner] at hid
    have := owner_id info ops id t hid
    subst this
    exact hno hid
  · intro ho
    refine ⟨[.stop (info t).id], by simp, ?_⟩
    rw [(hstop ho).1]; simp

/-- **C64** is violated whenever an id is taken over: whatever was done before, if a task runs and another
one is added under its id, or its id is removed, it runs on through all later calls that do not add it again. -/
theorem C64_any_taken_refuted (ops : List Op) (t : Nat) (hrun : (exec info init ops).tst t = .run)
    (o : Op) (x : Option Nat) (hs : says info (info t).id o = some x) (hx : x ≠ some t)
    (more : List Op) (hm : Op.add t ∉ more) : (exec info init (ops ++ o :: more)).tst t = .run := by
  have hrun' : (exec info init (ops ++ [o])).tst t = .run := by
    rw [exec_append]
    cases o <;> simp [says] at hs <;> exact hrun
  have hown : owner info (ops ++ [o]) (info t).id = x := by
    simp [owner, List.findSome?_cons, hs]
  refine Classical.byContradiction fun hne => ?_
  have := (C64_stoppable_exact info (ops ++ [o]) t hrun').1.1
    ⟨more, hm, by rwa [List.append_assoc, List.singleton_append]⟩
  rw [hown] at this
  exact hx this

/-- Three tasks, two of them with the same id. After the third took the id of the first, the first runs on and
the second can be stopped. -/
example :
    let info : Nat → Task := fun t => if t = 1 then ⟨"b", true⟩ else ⟨"a", true⟩
    let ops : List Op := [.add 0, .add 1, .startAll ["b", "a"]]
    (exec info init ops).tst 0 = .run ∧ (exec info init ops).tst 1 = .run ∧
    says info (info 0).id (.add 2) = some (some 2) ∧
    (exec info init (ops ++ [.add 2, .stop "a", .stop "b"])).tst 0 = .run ∧
    (exec info init (ops ++ [.add 2, .stop "a", .stop "b"])).tst 1 = .stop := by
  decide +kernel

end Braid.TimerService
