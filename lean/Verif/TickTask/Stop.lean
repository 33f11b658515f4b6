import Verif.TickTask.Inv

/-
What follows the stop of a task that was started once and never panicked (helper lemmas).
-/
namespace Braid.TickTask

theorem Inv.one {h : List Ev} {s : State} (i : Inv h s) (hb : starts h + panics h ≤ 1) : s.nloop ≤ 1 ∧ s.ntk ≤ 1 := by
  have := i.tot; have := i.made; omega

theorem Inv.zero {h : List Ev} {s : State} (i : Inv h s) (hb : starts h + panics h ≤ 1) {l : Nat}
    (hl : s.loop l ≠ .off) : l = 0 := by
  have := i.one hb
  rcases Nat.lt_or_ge l s.nloop with h' | h'
  · omega
  · exact absurd (i.off l h') hl

/-- The only ticker was stopped. -/
def Dead (s : State) : Prop := (s.tk 0).stopped = true ∧ 0 < s.ntk

/-- Handler calls that may still begin: a tick in the channel, a round that has begun. -/
def pot (s : State) : Nat := (if (s.tk 0).full then 1 else 0) + (if s.loop 0 = .pre then 1 else 0)

theorem pot_le (s : State) : pot s ≤ 2 := by unfold pot; split <;> split <;> omega

/-- Whoever is about to leave `stop` has stopped the ticker. -/
def StopInv (s : State) : Prop := ∀ p, s.cl p = .sset → Dead s

theorem Dead.congr {s s' : State} (d : Dead s) (h1 : s'.tk = s.tk) (h2 : s'.ntk = s.ntk) : Dead s' := by
  unfold Dead; rw [h1, h2]; exact d

theorem pot_congr {s s' : State} (h1 : s'.tk = s.tk) (h2 : s'.loop = s.loop) : pot s' = pot s := by
  unfold pot; rw [h1, h2]

theorem dead_tk {s : State} (d : Dead s) (k : Nat) (t : Tk) (h : k = 0 → t.stopped = true) :
    ((upd s.tk k t) 0).stopped = true := by
  rw [upd_apply]; split
  · rename_i h'; exact h h'.symm
  · exact d.1

theorem spawn_cl (c : Cfg) (s : State) : (spawn c s).cl = s.cl ∧ (spawn c s).tk = s.tk ∧ (spawn c s).ntk = s.ntk := by
  unfold spawn; split <;> simp

theorem dead_client {c : Cfg} {h : List Ev} {s s' : State} {p : Nat} {evs : List Ev} (i' : Inv (h ++ evs) s')
    (hb : starts (h ++ evs) + panics (h ++ evs) ≤ 1) (d : Dead s)
    (hs : client c s p = some (s', evs)) : Dead s' ∧ begins evs + pot s' ≤ pot s := by
  have ho := i'.one hb
  unfold client at hs
  split at hs
  · cases hs
  · split at hs
    · cases hs
    · simp only [Option.some.injEq, Prod.mk.injEq] at hs; obtain ⟨rfl, rfl⟩ := hs
      exact ⟨d, Nat.le_of_eq (by simp [begins, pot])⟩
  · split at hs <;> (simp only [Option.some.injEq, Prod.mk.injEq] at hs; obtain ⟨rfl, rfl⟩ := hs) <;>
      exact ⟨d, Nat.le_of_eq (by simp [begins, pot])⟩
  · simp only [Option.some.injEq, Prod.mk.injEq] at hs; obtain ⟨rfl, rfl⟩ := hs
    exact ⟨d, Nat.le_of_eq (by simp [begins, pot])⟩
  · simp only [Option.some.injEq, Prod.mk.injEq] at hs; obtain ⟨rfl, rfl⟩ := hs
    obtain ⟨-, e2, e3⟩ := spawn_cl c s
    refine ⟨d.congr e2 e3, ?_⟩
    unfold spawn at ho ⊢
    split
    · exact Nat.le_of_eq (by simp [begins, pot])
    · rename_i hd
      have h1 := i'.made; have h2 := d.2
      simp only [spawn, hd] at ho h1
      simp [begins, pot, upd_apply]
      split <;> simp
  · simp only [Option.some.injEq, Prod.mk.injEq] at hs; obtain ⟨rfl, rfl⟩ := hs
    exact ⟨d, Nat.le_of_eq (by simp [begins, pot])⟩
  · split at hs <;> (simp only [Option.some.injEq, Prod.mk.injEq] at hs; obtain ⟨rfl, rfl⟩ := hs) <;>
      exact ⟨d, Nat.le_of_eq (by simp [begins, pot])⟩
  · split at hs <;> (simp only [Option.some.injEq, Prod.mk.injEq] at hs; obtain ⟨rfl, rfl⟩ := hs)
    · exact ⟨d, Nat.le_of_eq (by simp [begins, pot])⟩
    · refine ⟨⟨dead_tk d _ _ (by simp), d.2⟩, Nat.le_of_eq ?_⟩
      simp only [begins, pot, upd_apply, List.countP_nil]
      split <;> simp_all
  · simp only [Option.some.injEq, Prod.mk.injEq] at hs; obtain ⟨rfl, rfl⟩ := hs
    exact ⟨d, Nat.le_of_eq (by simp [begins, pot])⟩

theorem dead_loop {c : Cfg} {h : List Ev} {s s' : State} {l : Nat} {bad skip : Bool} {evs : List Ev}
    (i : Inv h s) (hb0 : starts h + panics h ≤ 1) (i' : Inv (h ++ evs) s')
    (hb : starts (h ++ evs) + panics (h ++ evs) ≤ 1) (d : Dead s)
    (hs : loopStep c s l bad skip = some (s', evs)) : Dead s' ∧ begins evs + pot s' ≤ pot s := by
  have ho := i'.one hb
  have hd := d.2
  have hz : s.loop l ≠ .off → l = 0 := i.zero hb0
  unfold loopStep at hs
  split at hs
  · cases hs
  · rename_i hpc
    split at hs <;> (simp only [Option.some.injEq, Prod.mk.injEq] at hs; obtain ⟨rfl, rfl⟩ := hs)
    · exfalso; simp only at ho; omega
    · exact ⟨d, Nat.le_of_eq (by simp [begins, pot])⟩
  · rename_i hpc
    obtain rfl := hz (by rw [hpc]; simp)
    repeat' split at hs
    all_goals (simp only [Option.some.injEq, Prod.mk.injEq] at hs; obtain ⟨rfl, rfl⟩ := hs)
    all_goals refine ⟨d, ?_⟩; simp [begins, pot, hpc]; try omega
  · rename_i hpc
    obtain rfl := hz (by rw [hpc]; simp)
    repeat' split at hs
    all_goals (simp only [Option.some.injEq, Prod.mk.injEq] at hs; obtain ⟨rfl, rfl⟩ := hs)
    all_goals refine ⟨d, ?_⟩; simp [begins, pot, hpc]
  · rename_i hpc
    obtain rfl := hz (by rw [hpc]; simp)
    repeat' split at hs
    all_goals (simp only [Option.some.injEq, Prod.mk.injEq] at hs; obtain ⟨rfl, rfl⟩ := hs)
    all_goals refine ⟨d, ?_⟩; simp [begins, pot, hpc]
  · rename_i hpc
    obtain rfl := hz (by rw [hpc]; simp)
    split at hs <;> (simp only [Option.some.injEq, Prod.mk.injEq] at hs; obtain ⟨rfl, rfl⟩ := hs)
    · exact ⟨d, Nat.le_of_eq (by simp [begins, pot])⟩
    · obtain ⟨-, e2, e3⟩ := spawn_cl c { s with loop := upd s.loop 0 .read }
      refine ⟨Dead.congr d e2 e3, ?_⟩
      unfold spawn
      split
      · simp [begins, pot, hpc]
      · have hnl : s.nloop ≠ 0 := by have := i.made; omega
        simp [begins, pot, hpc, upd_of_ne _ _ (Ne.symm hnl)]
  · rename_i hpc
    obtain rfl := hz (by rw [hpc]; simp)
    split at hs
    · cases hs
    · simp only [Option.some.injEq, Prod.mk.injEq] at hs; obtain ⟨rfl, rfl⟩ := hs
      refine ⟨d, ?_⟩; simp [begins, pot, hpc]
  · rename_i k hpc
    obtain rfl := hz (by rw [hpc]; simp)
    have hk := i.recv _ _ hpc
    have h1 := i.one hb0
    obtain rfl : k = 0 := by omega
    split at hs
    · rename_i hf
      simp only [Option.some.injEq, Prod.mk.injEq] at hs; obtain ⟨rfl, rfl⟩ := hs
      refine ⟨⟨dead_tk d _ _ (by simpa using d.1), d.2⟩, ?_⟩
      simp [begins, pot, hpc, hf]
    · cases hs

theorem dead_step {c : Cfg} {h : List Ev} {s s' : State} {a : Act} {evs : List Ev}
    (i : Inv h s) (hb : starts (h ++ evs) + panics (h ++ evs) ≤ 1) (d : Dead s)
    (hs : step c s a = some (s', evs)) : Dead s' ∧ begins evs + pot s' ≤ pot s := by
  have i' := inv_step i hs
  have hb0 : starts h + panics h ≤ 1 := by rw [starts_append, panics_append] at hb; omega
  have ho := i'.one hb
  have hd := d.2
  unfold step at hs
  split at hs
  · cases hs
  · split at hs
    · split at hs
      · split at hs <;> (simp only [Option.some.injEq, Prod.mk.injEq] at hs; obtain ⟨rfl, rfl⟩ := hs) <;>
          exact ⟨d, Nat.le_of_eq (by simp [begins, pot])⟩
      · cases hs
    · split at hs
      · split at hs <;> (simp only [Option.some.injEq, Prod.mk.injEq] at hs; obtain ⟨rfl, rfl⟩ := hs) <;>
          exact ⟨d, Nat.le_of_eq (by simp [begins, pot])⟩
      · cases hs
    · exact dead_client i' hb d hs
    · split at hs
      · cases hs
      · simp only [Option.some.injEq, Prod.mk.injEq] at hs; obtain ⟨rfl, rfl⟩ := hs
        exfalso; have := i.made; simp only at ho; omega
    · split at hs
      · rename_i k hk
        exfalso
        obtain rfl : k = 0 := by have := i.one hb0; omega
        rw [d.1] at hk; simp at hk
      · cases hs
    · exact dead_loop i hb0 i' hb d hs

theorem dead_exec {c : Cfg} {h : List Ev} {s s' : State} {as : List Act} {evs : List Ev}
    (i : Inv h s) (hb : starts (h ++ evs) + panics (h ++ evs) ≤ 1) (d : Dead s)
    (hs : (sys c).exec s as = some (s', evs)) : begins evs + pot s' ≤ pot s := by
  induction as generalizing h s evs with
  | nil => simp [Lts.exec] at hs; obtain ⟨rfl, rfl⟩ := hs; simp [begins]
  | cons a as ih =>
    simp only [Lts.exec] at hs
    split at hs
    · cases hs
    · rename_i s1 e1 h1
      split at hs
      · cases hs
      · rename_i s2 e2 h2
        simp only [Option.some.injEq, Prod.mk.injEq] at hs; obtain ⟨rfl, rfl⟩ := hs
        rw [← List.append_assoc] at hb
        have hb1 : starts (h ++ e1) + panics (h ++ e1) ≤ 1 := by
          rw [starts_append, panics_append] at hb; omega
        obtain ⟨d1, l1⟩ := dead_step i hb1 d h1
        have := ih (inv_step i h1) hb d1 h2
        rw [begins_append]; omega

theorem stop_step {c : Cfg} {h : List Ev} {s s' : State} {a : Act} {evs : List Ev}
    (i : Inv h s) (hb : starts (h ++ evs) + panics (h ++ evs) ≤ 1) (q : StopInv s)
    (hs : step c s a = some (s', evs)) : StopInv s' := by
  intro p hp
  by_cases hc : s.cl p = .sset
  · exact (dead_step i hb (q p hc) hs).1
  · have hb0 : starts h + panics h ≤ 1 := by rw [starts_append, panics_append] at hb; omega
    have ho := i.one hb0
    unfold step client loopStep spawn at hs
    repeat' split at hs
    all_goals first
      | cases hs; done
      | skip
    all_goals (simp only [Option.some.injEq, Prod.mk.injEq] at hs; obtain ⟨rfl, rfl⟩ := hs)
    all_goals first
      | exact absurd hp hc
      | skip
    all_goals simp only [upd_apply] at hp; split at hp
    all_goals first
      | exact absurd hp hc
      | cases hp; done
      | skip
    rename_i k hk _
    have := i.tick k hk
    obtain rfl : k = 0 := by omega
    exact ⟨by simp, by simp only; omega⟩

theorem stop_run {c : Cfg} {h : List Ev} {s : State} (hr : (sys c).Run h s)
    (hb : starts h + panics h ≤ 1) : StopInv s := by
  refine Lts.Run.invariant (P := fun h s => starts h + panics h ≤ 1 → StopInv s) ?_ ?_ hr hb
  · intro _ p hp; cases hp
  · intro h s a s' evs hr hi hs hb
    have hb0 : starts h + panics h ≤ 1 := by rw [starts_append, panics_append] at hb; omega
    exact stop_step (inv_run hr) hb (hi hb0) hs

/-- Where effective stops come from. -/
theorem stopRet_step {c : Cfg} {s s' : State} {a : Act} {pre post : List Ev} {p : Nat}
    (hs : step c s a = some (s', pre ++ Ev.stopRet p true :: post)) :
    s.cl p = .sset ∧ a = .client p ∧ pre = [] ∧ post = [] := by
  generalize he : pre ++ Ev.stopRet p true :: post = evs at hs
  unfold step client loopStep spawn at hs
  repeat' split at hs
  all_goals first
    | cases hs; done
    | skip
  all_goals (simp only [Option.some.injEq, Prod.mk.injEq] at hs; obtain ⟨-, rfl⟩ := hs)
  all_goals first
    | (cases pre <;> simp at he; done)
    | skip
  all_goals
    rcases pre with _ | ⟨e0, _ | ⟨e1, pre⟩⟩ <;> simp at he
  simp_all

/-- Where crashes in `stop` come from. -/
theorem stopCrash_step {c : Cfg} {s s' : State} {a : Act} {pre post : List Ev} {p : Nat}
    (hs : step c s a = some (s', pre ++ Ev.stopCrash p :: post)) :
    s.ticker = none ∧ pre = [] ∧ post = [] := by
  generalize he : pre ++ Ev.stopCrash p :: post = evs at hs
  unfold step client loopStep spawn at hs
  repeat' split at hs
  all_goals first
    | cases hs; done
    | skip
  all_goals (simp only [Option.some.injEq, Prod.mk.injEq] at hs; obtain ⟨-, rfl⟩ := hs)
  all_goals first
    | (cases pre <;> simp at he; done)
    | skip
  all_goals
    rcases pre with _ | ⟨e0, _ | ⟨e1, pre⟩⟩ <;> simp at he
  simp_all

end Braid.TickTask
