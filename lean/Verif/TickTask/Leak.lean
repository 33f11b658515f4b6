import Verif.TickTask.DiscStep

/-
Helper lemmas for C114.
-/
namespace Braid.TickTask

/-- No goroutine of a task ever ends. -/
theorem alive_step {c : Cfg} {s s' : State} {a : Act} {evs : List Ev} (hs : step c s a = some (s', evs)) {l : Nat}
    (hl : s.loop l ≠ .off) (hlt : l < s.nloop) : s'.loop l ≠ .off ∧ l < s'.nloop := by
  simp only [step] at hs
  split at hs
  · cases hs
  cases a with
  | client p =>
    simp only [client, spawn] at hs
    repeat' split at hs
    all_goals first | (cases hs; done) | skip
    all_goals (cases hs; first | exact ⟨hl, hlt⟩ | (refine ⟨?_, Nat.lt_succ_of_lt hlt⟩; dsimp only; rw [upd_of_ne _ _ (by omega)]; exact hl))
  | loop k bad skip =>
    simp only [loopStep, spawn] at hs
    repeat' split at hs
    all_goals first | (cases hs; done) | skip
    all_goals (cases hs; (try simp only [upd_apply]); constructor <;> (repeat' split) <;> first | (simp; done) | assumption | omega)
  | callStart p =>
    dsimp only at hs
    repeat' split at hs
    all_goals (cases hs <;> exact ⟨hl, hlt⟩)
  | callStop p =>
    dsimp only at hs
    repeat' split at hs
    all_goals (cases hs <;> exact ⟨hl, hlt⟩)
  | due =>
    dsimp only at hs
    split at hs <;> cases hs
    refine ⟨?_, Nat.lt_succ_of_lt hlt⟩
    dsimp only
    rw [upd_of_ne _ _ (by omega)]; exact hl
  | fire k => dsimp only at hs; split at hs <;> cases hs; exact ⟨hl, hlt⟩

theorem alive_exec {c : Cfg} {as : List Act} : ∀ {s s' : State} {evs : List Ev}, (sys c).exec s as = some (s', evs) →
    ∀ {l : Nat}, s.loop l ≠ .off → l < s.nloop → s'.loop l ≠ .off ∧ l < s'.nloop := by
  induction as with
  | nil => intro s s' evs he l hl hlt; cases he; exact ⟨hl, hlt⟩
  | cons a as ih =>
    intro s s' evs he l hl hlt
    cases hs : (sys c).step s a with
    | none => simp [Lts.exec, hs] at he
    | some r =>
      obtain ⟨s1, e1⟩ := r
      cases he2 : (sys c).exec s1 as with
      | none => simp [Lts.exec, hs, he2] at he
      | some r2 =>
        obtain ⟨s2, e2⟩ := r2
        simp [Lts.exec, hs, he2] at he
        obtain ⟨rfl, rfl⟩ := he
        obtain ⟨h1, h2⟩ := alive_step hs hl hlt
        exact ih he2 h1 h2

/-- A goroutine that waits at a stopped, empty ticker. -/
def Stuck (s : State) (l k : Nat) : Prop := s.loop l = .recv k ∧ s.tk k = ⟨true, false⟩ ∧ k < s.ntk ∧ l < s.nloop

theorem stuck_step {c : Cfg} {s s' : State} {a : Act} {evs : List Ev} (hs : step c s a = some (s', evs)) {l k : Nat}
    (h : Stuck s l k) : Stuck s' l k := by
  obtain ⟨h1, h2, h3, h4⟩ := h
  simp only [step] at hs
  split at hs
  · cases hs
  cases a with
  | client p =>
    simp only [client, spawn] at hs
    repeat' split at hs
    all_goals first | (cases hs; done) | skip
    all_goals
      cases hs
      refine ⟨?_, ?_, h3, ?_⟩
      · first | exact h1 | (dsimp only; rw [upd_of_ne _ _ (by omega)]; exact h1)
      · first | exact h2 | (simp only [upd_apply]; split <;> simp_all)
      · first | exact h4 | exact Nat.lt_succ_of_lt h4
  | loop j bad skip =>
    by_cases e : j = l
    · subst e
      simp [loopStep, h1, h2] at hs
    · simp only [loopStep, spawn] at hs
      repeat' split at hs
      all_goals first | (cases hs; done) | skip
      all_goals
        cases hs
        refine ⟨?_, ?_, ?_, ?_⟩
        · first | exact h1 | (simp only [upd_apply]; (repeat' split) <;> first | exact h1 | omega | simp_all)
        · first | exact h2 | (simp only [upd_apply]; split <;> first | exact h2 | omega | simp_all)
        · first | exact h3 | exact Nat.lt_succ_of_lt h3
        · first | exact h4 | exact Nat.lt_succ_of_lt h4
  | callStart p =>
    dsimp only at hs
    repeat' split at hs
    all_goals (cases hs <;> exact ⟨h1, h2, h3, h4⟩)
  | callStop p =>
    dsimp only at hs
    repeat' split at hs
    all_goals (cases hs <;> exact ⟨h1, h2, h3, h4⟩)
  | due =>
    dsimp only at hs
    split at hs <;> cases hs
    refine ⟨?_, h2, h3, Nat.lt_succ_of_lt h4⟩
    dsimp only
    rw [upd_of_ne _ _ (by omega)]; exact h1
  | fire j =>
    dsimp only at hs
    split at hs
    · rename_i hj
      cases hs
      refine ⟨h1, ?_, h3, h4⟩
      have : k ≠ j := by intro e; subst e; rw [h2] at hj; simp at hj
      dsimp only
      rw [upd_of_ne _ _ this]; exact h2
    · cases hs

theorem stuck_exec {c : Cfg} {as : List Act} : ∀ {s s' : State} {evs : List Ev}, (sys c).exec s as = some (s', evs) →
    ∀ {l k : Nat}, Stuck s l k → Stuck s' l k := by
  induction as with
  | nil => intro s s' evs he l k h; cases he; exact h
  | cons a as ih =>
    intro s s' evs he l k h
    cases hs : (sys c).step s a with
    | none => simp [Lts.exec, hs] at he
    | some r =>
      obtain ⟨s1, e1⟩ := r
      cases he2 : (sys c).exec s1 as with
      | none => simp [Lts.exec, hs, he2] at he
      | some r2 =>
        obtain ⟨s2, e2⟩ := r2
        simp [Lts.exec, hs, he2] at he
        obtain ⟨rfl, rfl⟩ := he
        exact ih he2 (stuck_step hs h)

theorem cnt_none {p : LPc → Bool} {f : Nat → LPc} (n : Nat) (h : ∀ l, l < n → p (f l) = false) : cnt f n p = 0 := by
  induction n with
  | zero => rfl
  | succ n ih =>
    have := ih fun l hl => h l (by omega)
    simp_all [cnt]

/-- All goroutines numbered so far are there. -/
theorem all_there {c : Cfg} {h : List Ev} {s : State} (hr : (sys c).Run h s) : ∀ l, l < s.nloop → s.loop l ≠ .off := by
  refine Lts.Run.invariant (P := fun _ s => ∀ l, l < s.nloop → s.loop l ≠ .off) (by intro l hl; cases hl) ?_ hr
  intro h s a s' evs _ hi hs l hl
  by_cases hlt : l < s.nloop
  · exact (alive_step hs (hi l hlt) hlt).1
  · obtain ⟨h1, h2⟩ : s'.nloop = s.nloop + 1 ∧ s'.loop s.nloop = .make := by
      simp only [sys, step] at hs
      split at hs
      · cases hs
      cases a with
      | client p =>
        simp only [client, spawn] at hs
        repeat' split at hs
        all_goals first | (cases hs; done) | skip
        all_goals (cases hs; first | (exact absurd hl hlt) | exact ⟨rfl, upd_same ..⟩)
      | loop k bad skip =>
        simp only [loopStep, spawn] at hs
        repeat' split at hs
        all_goals first | (cases hs; done) | skip
        all_goals (cases hs; first | (exact absurd hl hlt) | exact ⟨rfl, upd_same ..⟩)
      | callStart p =>
        dsimp only at hs
        repeat' split at hs
        all_goals (cases hs <;> exact absurd hl hlt)
      | callStop p =>
        dsimp only at hs
        repeat' split at hs
        all_goals (cases hs <;> exact absurd hl hlt)
      | due =>
        dsimp only at hs
        split at hs <;> cases hs
        exact ⟨rfl, upd_same ..⟩
      | fire k => dsimp only at hs; split at hs <;> cases hs; exact absurd hl hlt
    have : l = s.nloop := by omega
    rw [this, h2]; nofun

/-- A stopped task at rest with `n` goroutines, and no call in progress. -/
structure Rested (s : State) (n : Nat) : Prop where
  nocrash : s.crashed = false
  ts : s.tstate ≠ .run
  mutex : s.mutex = false
  cl : ∀ q, s.cl q = .idle
  delayed : s.delayed = 0
  nloop : s.nloop = n
  parked : ∀ l, l < n → ∃ k, Stuck s l k
  off : ∀ l, n ≤ l → s.loop l = .off

/-- A start, one round in which the handler is called, and a stop once the goroutine waits. -/
def cycleActs (n : Nat) : List Act :=
  [.callStart 0, .client 0, .client 0, .client 0, .client 0, .client 0, .loop n false false, .loop n false false,
    .loop n false false, .loop n false false, .loop n false false, .callStop 0, .client 0, .client 0, .client 0]

def cycleEvs (n : Nat) : List Ev :=
  [.started 0, .startRet 0, .hstart n, .hend n, .stopCall 0, .stopRet 0 true]

theorem cycle {s : State} {n : Nat} (r : Rested s n) :
    ∃ s', (sys ⟨true, false, true, true⟩).exec s (cycleActs n) = some (s', cycleEvs n) ∧ Rested s' (n + 1) := by
  obtain ⟨z1, z2, z3, z4, z5, z6, z7, z8⟩ := r
  have he : ∃ s', (sys ⟨true, false, true, true⟩).exec s (cycleActs n) = some (s', cycleEvs n) ∧
      s'.crashed = false ∧ s'.tstate = .stop ∧ s'.mutex = false ∧ (∀ q, s'.cl q = .idle) ∧ s'.delayed = 0 ∧
      s'.nloop = n + 1 ∧ Stuck s' n s.ntk ∧ ∀ l, n + 1 ≤ l → s'.loop l = .off := by
    cases ht : s.tstate with
    | run => exact absurd ht z2
    | init =>
      simp [cycleActs, Lts.exec, sys, step, client, loopStep, spawn, cycleEvs, z1, ht, z3, z4, z5, z6, upd_apply, Stuck]
      refine ⟨fun q hq => by simp [hq], fun l hl => ?_⟩
      simp [show l ≠ n by omega, z8 l (by omega)]
    | stop =>
      simp [cycleActs, Lts.exec, sys, step, client, loopStep, spawn, cycleEvs, z1, ht, z3, z4, z5, z6, upd_apply, Stuck]
      refine ⟨fun q hq => by simp [hq], fun l hl => ?_⟩
      simp [show l ≠ n by omega, z8 l (by omega)]
  obtain ⟨s', e, a1, a2, a3, a4, a5, a6, a7, a8⟩ := he
  refine ⟨s', e, a1, by rw [a2]; nofun, a3, a4, a5, a6, fun l hl => ?_, a8⟩
  by_cases h : l = n
  · exact h ▸ ⟨_, a7⟩
  · obtain ⟨k, hk⟩ := z7 l (by omega)
    exact ⟨k, stuck_exec e hk⟩

/-- `n` such cycles. -/
def cycles : Nat → List Ev
  | 0 => []
  | n + 1 => cycles n ++ cycleEvs n

theorem cycles_run (n : Nat) : ∃ s, (sys ⟨true, false, true, true⟩).Run (cycles n) s ∧ Rested s n := by
  induction n with
  | zero => exact ⟨_, .init, rfl, by nofun, rfl, fun _ => rfl, rfl, rfl, by intro l hl; omega, fun _ _ => rfl⟩
  | succ n ih =>
    obtain ⟨s, r, z⟩ := ih
    obtain ⟨s', e, z'⟩ := cycle z
    exact ⟨s', r.exec e, z'⟩

theorem Rested.atRest {s : State} {n : Nat} (r : Rested s n) : AtRest s := by
  refine ⟨r.delayed, fun l => ?_⟩
  by_cases h : l < n
  · obtain ⟨k, h1, h2, _⟩ := r.parked l h
    exact .inr ⟨k, h1, h2⟩
  · exact .inl (r.off l (by omega))

theorem cycles_counts (n : Nat) : starts (cycles n) = n ∧ stops (cycles n) = n ∧ begins (cycles n) = n ∧
    ends (cycles n) = n ∧ panics (cycles n) = 0 := by
  induction n with
  | zero => exact ⟨rfl, rfl, rfl, rfl, rfl⟩
  | succ n ih =>
    obtain ⟨h1, h2, h3, h4, h5⟩ := ih
    simp only [cycles, starts_append, begins_append, ends_append, panics_append, h1, h3, h4, h5]
    refine ⟨rfl, ?_, rfl, rfl, rfl⟩
    simp only [stops] at h2 ⊢
    rw [List.countP_append, h2]; rfl

end Braid.TickTask
