import Verif.TickTask.ServiceSpec

/-
Property C64: the timer service. Every theorem quantifies over all sequences of calls.
-/
namespace Braid.TimerService

variable (info : Nat → Task)

theorem start_tmap (s : State) (t : Nat) : (start info s t).tmap = s.tmap := by
  unfold start; split
  · rfl
  · split <;> rfl

theorem stop_tmap (s : State) (t : Nat) : (stop info s t).tmap = s.tmap := by
  unfold stop; split
  · rfl
  · split <;> rfl

theorem startAll_spec (order : List String) (s : State) :
    (startAll info s order).1.tmap = s.tmap ∧
      (startAll info s order).2 = (order.filterMap s.tmap).map Ev.start := by
  induction order generalizing s with
  | nil => exact ⟨rfl, rfl⟩
  | cons id rest ih =>
    simp only [startAll]
    split
    · rename_i h; simp [h, ih s]
    · rename_i t h; simp [h, ih (start info s t), start_tmap]

theorem stopAll_spec (order : List String) (s : State) :
    (stopAll info s order).1.tmap = s.tmap ∧
      (stopAll info s order).2 = (order.filterMap s.tmap).map Ev.stop := by
  induction order generalizing s with
  | nil => exact ⟨rfl, rfl⟩
  | cons id rest ih =>
    simp only [stopAll]
    split
    · rename_i h; simp [h, ih s]
    · rename_i t h; simp [h, ih (stop info s t), stop_tmap]

theorem step_tmap (s : State) (o : Op) (id : String) :
    (step info s o).1.tmap id = (says info id o).getD (s.tmap id) := by
  cases o with
  | add t => simp only [step, says, upd_apply]; split <;> split <;> simp_all
  | remove i => simp only [step, says, upd_apply]; split <;> split <;> simp_all
  | startTask i => simp only [step, says]; split <;> simp [start_tmap]
  | stopTask i => simp only [step, says]; split <;> simp [stop_tmap]
  | stop i => simp only [step, says]; split <;> simp [stop_tmap]
  | startAll l => simp [step, says, startAll_spec]
  | stopAll l => simp [step, says, stopAll_spec]

theorem exec_append (s : State) (a b : List Op) : exec info s (a ++ b) = exec info (exec info s a) b := by
  induction a generalizing s with
  | nil => rfl
  | cons o a ih => exact ih _

theorem tmap_owner (ops : List Op) (id : String) : (exec info init ops).tmap id = owner info ops id := by
  suffices ∀ s, (exec info s ops).tmap id = (ops.reverse.findSome? (says info id)).getD (s.tmap id) from this init
  induction ops with
  | nil => intro s; rfl
  | cons o ops ih =>
    intro s
    rw [exec, ih, List.reverse_cons, List.findSome?_append, step_tmap]
    cases h : List.findSome? (says info id) ops.reverse <;> cases h' : says info id o <;> simp [h']

/-- **C64**: `StartTask(id)` calls `start` of the task that was added under `id` last (and not removed), and
of no other. -/
theorem C64_start (ops : List Op) (id : String) :
    (step info (exec info init ops) (.startTask id)).2 = (owner info ops id).toList.map Ev.start := by
  rw [← tmap_owner]; simp only [step]; split <;> simp [*]

/-- **C64**: `StopTask(id)` calls `stop` of that task, and of no other. -/
theorem C64_stop (ops : List Op) (id : String) :
    (step info (exec info init ops) (.stopTask id)).2 = (owner info ops id).toList.map Ev.stop := by
  rw [← tmap_owner]; simp only [step]; split <;> simp [*]

/-- **C64**: `Stop(id)` does the same and returns an error iff there is no such task. -/
theorem C64_stop_error (ops : List Op) (id : String) :
    (∀ t, owner info ops id = some t → (step info (exec info init ops) (.stop id)).2 = [.stop t]) ∧
    (owner info ops id = none → (step info (exec info init ops) (.stop id)).2 = [.notFound id]) := by
  rw [← tmap_owner]
  constructor
  · intro t h; simp [step, h]
  · intro h; simp [step, h]

/-- `StartAllTask` and `StopAllTask` call each task that is in the map exactly once, whatever the order. -/
theorem C64_all (ops : List Op) (order : List String) (ho : GoodOrder info ops order) :
    (step info (exec info init ops) (.startAll order)).2 = (order.filterMap (owner info ops)).map Ev.start ∧
    (step info (exec info init ops) (.stopAll order)).2 = (order.filterMap (owner info ops)).map Ev.stop ∧
    (order.filterMap (owner info ops)).Nodup ∧
    (∀ t, t ∈ order.filterMap (owner info ops) ↔ ∃ id, owner info ops id = some t) := by
  have he : (exec info init ops).tmap = owner info ops := funext (tmap_owner info ops)
  refine ⟨by simp [step, startAll_spec, he], by simp [step, stopAll_spec, he], ?_, ?_⟩
  · have hid : ∀ id t, owner info ops id = some t → (info t).id = id := by
      intro id t h
      unfold owner at h
      cases hf : List.findSome? (says info id) ops.reverse with
      | none => rw [hf] at h; cases h
      | some o =>
        rw [hf] at h
        simp only [Option.getD_some] at h
        obtain ⟨x, _, hx⟩ := List.exists_of_findSome?_eq_some hf
        subst h
        cases x <;> simp [says] at hx
        obtain ⟨h1, h2⟩ := hx
        rw [← h2]; exact h1
    have hn := ho.1
    clear ho
    induction order with
    | nil => simp
    | cons id rest ih =>
      rw [List.nodup_cons] at hn
      cases h : owner info ops id with
      | none => simpa [h] using ih hn.2
      | some t =>
        rw [List.filterMap_cons, h]
        simp only [List.nodup_cons]
        refine ⟨?_, ih hn.2⟩
        intro hm
        obtain ⟨id', h1, h2⟩ := List.mem_filterMap.1 hm
        have e : id' = id := (hid id' t h2).symm.trans (hid id t h)
        exact hn.1 (e ▸ h1)
  · intro t
    rw [List.mem_filterMap]
    constructor
    · rintro ⟨id, -, h⟩; exact ⟨id, h⟩
    · rintro ⟨id, h⟩; exact ⟨id, (ho.2 id).2 (by rw [h]; simp), h⟩

/-- **C64**, the part of the last clause that holds: a task that was added can be stopped through the service
as long as neither it was removed nor a task was added under its id. What is missing: tasks whose id was
taken by another task. -/
theorem C64_stoppable_partial (o1 o2 : List Op) (t : Nat) (h : ∀ o ∈ o2, says info (info t).id o = none) :
    (step info (exec info init (o1 ++ .add t :: o2)) (.stop (info t).id)).2 = [.stop t] ∧
    ((info t).isRun = true →
      (step info (exec info init (o1 ++ .add t :: o2)) (.stop (info t).id)).1.tst t ≠ .run) := by
  have ho : owner info (o1 ++ .add t :: o2) (info t).id = some t := by
    unfold owner
    have : o2.reverse.findSome? (says info (info t).id) = none := by
      rw [List.findSome?_eq_none_iff]; intro o ho; exact h o (by simpa using ho)
    rw [List.reverse_append, List.reverse_cons, List.append_assoc, List.findSome?_append, this]
    simp [says]
  refine ⟨(C64_stop_error info _ _).1 t ho, ?_⟩
  intro hr
  rw [← tmap_owner] at ho
  simp only [step, ho, stop, hr]
  cases hx : (exec info init (o1 ++ .add t :: o2)).tst t <;> simp [hx]

theorem startAll_tst (order : List String) (s : State) (t : Nat) (h : s.tst t = .run) :
    (startAll info s order).1.tst t = .run := by
  induction order generalizing s with
  | nil => exact h
  | cons id rest ih =>
    simp only [startAll]
    split
    · exact ih s h
    · rename_i u _
      refine ih _ ?_
      unfold start; split
      · exact h
      · split
        · exact h
        · simp only [upd_apply]; split
          · rfl
          · exact h

theorem stop_other (s : State) (t u : Nat) (hne : t ≠ u) : (stop info s u).tst t = s.tst t := by
  unfold stop; split
  · rfl
  · split
    · simp [upd_of_ne _ _ hne]
    · rfl

theorem stopAll_tst (order : List String) (s : State) (t : Nat) (hm : ∀ id, s.tmap id ≠ some t) (h : s.tst t = .run) :
    (stopAll info s order).1.tst t = .run := by
  induction order generalizing s with
  | nil => exact h
  | cons id rest ih =>
    simp only [stopAll]
    split
    · exact ih s hm h
    · rename_i u hu
      refine ih _ (by rw [stop_tmap]; exact hm) ?_
      rw [stop_other info s t u (by rintro rfl; exact hm id hu)]; exact h

theorem orphan_step (s : State) (o : Op) (t : Nat) (hm : ∀ id, s.tmap id ≠ some t) (h : s.tst t = .run)
    (ho : o ≠ .add t) :
    (∀ id, (step info s o).1.tmap id ≠ some t) ∧ (step info s o).1.tst t = .run := by
  constructor
  · intro id
    rw [step_tmap]
    cases hs : says info id o with
    | none => exact hm id
    | some x =>
      intro hx
      simp only [Option.getD_some] at hx
      subst hx
      cases o <;> simp [says] at hs
      exact ho (by rw [hs.2])
  · cases o with
    | add u => exact h
    | remove i => exact h
    | startTask i =>
      simp only [step]; split
      · exact h
      · unfold start; split
        · exact h
        · split
          · exact h
          · simp only [upd_apply]; split
            · rfl
            · exact h
    | stopTask i =>
      simp only [step]; split
      · exact h
      · rename_i u hu; rw [stop_other info s t u (by rintro rfl; exact hm i hu)]; exact h
    | stop i =>
      simp only [step]; split
      · exact h
      · rename_i u hu; rw [stop_other info s t u (by rintro rfl; exact hm i hu)]; exact h
    | startAll l => exact startAll_tst info l s t h
    | stopAll l => exact stopAll_tst info l s t hm h

theorem orphan_exec (ops : List Op) (s : State) (t : Nat) (hm : ∀ id, s.tmap id ≠ some t) (h : s.tst t = .run)
    (ho : Op.add t ∉ ops) : (exec info s ops).tst t = .run := by
  induction ops generalizing s with
  | nil => exact h
  | cons o ops ih =>
    simp only [List.mem_cons, not_or] at ho
    obtain ⟨h1, h2⟩ := orphan_step info s o t hm h (Ne.symm ho.1)
    exact ih _ h1 h2 ho.2

/-- **C64** is violated: adding a second task under the id of a running one orphans the first. It was never
removed, yet whatever is done through the service it keeps running (unless it is added again). -/
theorem C64_replaced_refuted : ∃ info : Nat → Task, ∃ ops : List Op,
    (∀ id, Op.remove id ∉ ops) ∧ Op.add 0 ∈ ops ∧
    ∀ more : List Op, Op.add 0 ∉ more → (exec info init (ops ++ more)).tst 0 = .run := by
  refine ⟨fun _ => ⟨"tick", true⟩, [.add 0, .startTask "tick", .add 1], by simp, by simp, ?_⟩
  intro more hm
  rw [exec_append]
  refine orphan_exec _ more _ 0 ?_ rfl hm
  intro id
  rw [tmap_owner]
  by_cases h : "tick" = id
  · subst h; simp [owner, says, List.findSome?_cons]
  · simp [owner, says, List.findSome?_cons, h]

/-- The same for a task that was removed while it ran: `RemoveTask` does not stop it, and the service has no
way to do so afterwards. -/
theorem C64_removed_runs_on (more : List Op) (hm : Op.add 0 ∉ more) :
    (exec (fun _ => ⟨"tick", true⟩) init ([.add 0, .startTask "tick", .remove "tick"] ++ more)).tst 0 = .run := by
  rw [exec_append]
  refine orphan_exec _ more _ 0 ?_ rfl hm
  intro id
  rw [tmap_owner]
  by_cases h : "tick" = id
  · subst h; simp [owner, says, List.findSome?_cons]
  · simp [owner, says, List.findSome?_cons, h]

/-- Two tasks with different ids: the hypotheses of `C64_stoppable_partial` and `C64_all`. -/
example :
    let info : Nat → Task := fun t => if t = 0 then ⟨"a", true⟩ else ⟨"b", true⟩
    (∀ o ∈ [Op.startTask "a", .add 1, .remove "b"], says info (info 0).id o = none) ∧
    GoodOrder info [.add 0, .add 1] ["b", "a"] ∧
    (step info (exec info init [.add 0, .startTask "a"]) (.stop "a")).2 = [.stop 0] := by
  refine ⟨by simp [says], ⟨by simp, ?_⟩, rfl⟩
  intro id
  simp only [owner, says, List.reverse_cons, List.reverse_nil, List.nil_append, List.cons_append,
    List.findSome?_cons, List.findSome?_nil, reduceIte]
  by_cases h1 : "b" = id
  · subst h1; simp
  · by_cases h2 : "a" = id
    · subst h2; simp
    · simp [h1, h2, Ne.symm h1, Ne.symm h2]

end Braid.TimerService
