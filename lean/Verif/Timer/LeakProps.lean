import Verif.Timer.Leak

/-
Property C117: the goroutine of a cancelled timer ends.
-/
namespace Braid.Timer
open Spec

/-- **C117**, the full statement: when a timer has been cancelled and nothing is left to do for its goroutine, now or later, that
goroutine is gone. -/
def CancelEnds : Prop :=
  ∀ h s u t, sys.Run h s → .stopRet u t true ∈ h → (∀ v d, .resetCall v t d ∉ h) →
    (∀ as s' evs, sys.exec s as = some (s', evs) → .shutdown ∉ evs → (∀ v d, .resetCall v t d ∉ evs) →
      .g t true ∉ as ∧ .g t false ∉ as) → ¬ Alive s t

/-- **C117, exactly**: until the actor is shut down every timer that was ever made has its goroutine, whether it was
cancelled or not; there is exactly one for each call of `OnTimer`. -/
theorem C117_exact {h : List Ev} {s : State} (hr : sys.Run h s) (hs : .shutdown ∉ h) :
    (∀ t, Alive s t ↔ t ∈ mades h) ∧ (mades h).Nodup := by
  have hl := invL_run hr
  have ha := invA_run hr
  refine ⟨fun t => ?_, hl.made ▸ List.nodup_range⟩
  rw [hl.made, List.mem_range]
  constructor
  · intro hg
    by_cases h : t < s.n
    · exact h
    · exact absurd (ha.calls t (by omega)).2.2.2.2.1 hg.1
  · intro ht
    exact ⟨hl.on t ht, fun he => hs (ha.shut (ha.ended t he))⟩

/-- **C117** is violated for every number `n`: after `n` timers were made and cancelled there are `n` goroutines, none of which
does anything ever again unless the actor is shut down or somebody resets its timer. -/
theorem C117_refuted : ¬ CancelEnds ∧
    ∀ n, ∃ h s, sys.Run h s ∧ mades h = List.range n ∧ (∀ t, t < n → .stopRet 0 t true ∈ h) ∧ (∀ t, t < n → Alive s t) ∧
      ∀ as s' evs, sys.exec s as = some (s', evs) → .shutdown ∉ evs → ∀ t, t < n → (∀ v d, .resetCall v t d ∉ evs) →
        .g t true ∉ as ∧ .g t false ∉ as ∧ Alive s' t := by
  have key : ∀ n, ∃ h s, sys.Run h s ∧ mades h = List.range n ∧ (∀ t, t < n → .stopRet 0 t true ∈ h) ∧ (∀ t, t < n → Alive s t) ∧
      (∀ v t d, .resetCall v t d ∉ h) ∧
      ∀ as s' evs, sys.exec s as = some (s', evs) → .shutdown ∉ evs → ∀ t, t < n → (∀ v d, .resetCall v t d ∉ evs) →
        .g t true ∉ as ∧ .g t false ∉ as ∧ Alive s' t := by
    intro n
    have hr := leaked_run n
    have hm := (invL_run hr).made
    refine ⟨_, _, hr, hm, cycles_mem n, ?_, ?_, ?_⟩
    · intro t ht
      have := (leaked_parked n t ht).tm
      simp [Alive, this, cancelled]
    · intro v t d
      induction n with
      | zero => simp [cycles]
      | succ n ih => simp [cycles, ih (leaked_run n) (invL_run (leaked_run n)).made]
    · intro as s' evs he h1 t ht h2
      obtain ⟨hp, a1, a2, -⟩ := parked_exec (k := ⟨false, 1000000, 1000000, false⟩) (by simp [cancelled])
        (leaked_parked n t ht) he h1 h2
      exact ⟨a1, a2, by simp [Alive, hp.tm, cancelled]⟩
  refine ⟨fun hc => ?_, fun n => ?_⟩
  · obtain ⟨h, s, hr, -, h2, h3, h4, h5⟩ := key 1
    refine hc h s 0 0 hr (h2 0 (by omega)) (fun v d => h4 v 0 d) (fun as s' evs he n1 n2 => ?_) (h3 0 (by omega))
    exact ⟨(h5 as s' evs he n1 0 (by omega) n2).1, (h5 as s' evs he n1 0 (by omega) n2).2.1⟩
  · obtain ⟨h, s, hr, h1, h2, h3, -, h5⟩ := key n
    exact ⟨h, s, hr, h1, h2, h3, h5⟩

/-- **C117, the part that holds**: once the actor is shut down the goroutine of any timer can end, by steps of its own, of time and
of the loop, as long as the loop goes on receiving. What is missing: before the shutdown (`C117_refuted`), and when the loop
has ended (`C117_full_refuted`). -/
theorem C117_ends_partial {h : List Ev} {s : State} (hr : sys.Run h s) (hs : .shutdown ∈ h) (hc : s.crashed = false)
    (hi : ∀ t d i a, .made t d i a ∈ h → 0 < i ∧ i ≤ maxMs) {t : Nat} (ht : t ∈ mades h) : CanEnd s t := by
  have hl := invL_run hr
  have ht' : t < s.n := by rw [hl.made, List.mem_range] at ht; exact ht
  have hsd : s.shutdown = true := hr.invariant (P := fun h s => .shutdown ∈ h → s.shutdown = true) (by simp) (by
    intro h s a s' evs _ ih hs hm
    simp only [sys] at hs
    rcases List.mem_append.1 hm with hm | hm
    · have := ih hm
      clear ih
      cases a <;> t_cases hs <;> simp_all
    · clear ih
      cases a <;> t_cases hs <;> simp_all) hs
  exact canEnd hc hsd (pos_run hr hi t ht') (room_inv hr) (hl.on t ht')

/-- **C117** is violated after the shutdown, too: when the channel of ticks is full and the loop receives no more (it ends when the
actor has closed, without emptying the channel), a goroutine that has a tick to send never sees the shutdown. -/
theorem C117_full_refuted : ∃ h s, sys.Run h s ∧ .shutdown ∈ h ∧ s.crashed = false ∧ 0 ∈ mades h ∧
    ∀ as s' evs, sys.exec s as = some (s', evs) → .select ∉ as → Alive s' 0 := by
  obtain ⟨h, s, hr, h1, h2, h3⟩ := stuck_run
  refine ⟨h, s, hr, h1, h3, ?_, fun as s' evs he hn => ?_⟩
  · rw [(invL_run hr).made, List.mem_range]; exact h2.2.2
  · have := stuck_exec h2 he hn
    simp [Alive, this.1]

/-- Three timers that were made and cancelled: three goroutines. -/
example : ∃ h s, sys.Run h s ∧ .shutdown ∉ h ∧ mades h = [0, 1, 2] ∧ .stopRet 0 1 true ∈ h :=
  ⟨_, _, leaked_run 3, cycles_shutdown 3, by decide, by decide⟩

/-- The actor is shut down while a timer waits for its due time. -/
example : ∃ h s, sys.Run h s ∧ .shutdown ∈ h ∧ s.crashed = false ∧ (∀ t d i a, .made t d i a ∈ h → 0 < i ∧ i ≤ maxMs) ∧
    0 ∈ mades h ∧ Alive s 0 := by
  have h1 := (ex_run 5).step (a := .shutdown) (s' := { exState 5 with shutdown := true }) (evs := [.shutdown])
    (by simp [sys, step, exState, setT, init])
  refine ⟨_, _, h1, by simp, rfl, ?_, by decide, by simp [Alive, exState, setT]⟩
  intro t d i a hm
  simp at hm
  obtain ⟨-, -, rfl, -⟩ := hm
  decide

end Braid.Timer
