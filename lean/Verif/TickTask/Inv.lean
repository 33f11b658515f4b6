import Verif.TickTask.Spec
import Verif.Lib.Count

/-
Invariants of the model of tick tasks (helper lemmas).
-/
namespace Braid.TickTask

def isRunPc : LPc → Bool
  | .run => true
  | _ => false
def isMake : LPc → Bool
  | .make => true
  | _ => false
def isRec : LPc → Bool
  | .recover => true
  | _ => false

theorem begins_append (a b : List Ev) : begins (a ++ b) = begins a + begins b := by simp [begins]
theorem ends_append (a b : List Ev) : ends (a ++ b) = ends a + ends b := by simp [ends]
theorem starts_append (a b : List Ev) : starts (a ++ b) = starts a + starts b := by simp [starts]
theorem panics_append (a b : List Ev) : panics (a ++ b) = panics a + panics b := by simp [panics]

/-- How many goroutines there are, and where. -/
structure Inv (h : List Ev) (s : State) : Prop where
  off : ∀ l, s.nloop ≤ l → s.loop l = .off
  run : begins h = ends h + cnt s.loop s.nloop isRunPc
  made : s.ntk + cnt s.loop s.nloop isMake = s.nloop
  tot : s.nloop + s.delayed + cnt s.loop s.nloop isRec = starts h + panics h
  tick : ∀ k, s.ticker = some k → k < s.ntk
  recv : ∀ l k, s.loop l = .recv k → k < s.ntk
  has : 0 < s.ntk → s.ticker ≠ none
  past : ∀ l, s.loop l ≠ .off → s.loop l ≠ .make → 0 < s.ntk
  beg : 0 < begins h → 0 < s.ntk

theorem inv_init : Inv [] init := by
  refine ⟨fun _ _ => rfl, rfl, rfl, rfl, ?_, ?_, ?_, ?_, ?_⟩ <;> simp [init, begins]

/-- Steps that only touch the callers, the task state or the tickers' channels. -/
theorem Inv.frame {h : List Ev} {s s' : State} {evs : List Ev} (i : Inv h s)
    (h1 : s'.loop = s.loop) (h2 : s'.nloop = s.nloop) (h3 : s'.ntk = s.ntk) (h4 : s'.ticker = s.ticker)
    (h5 : s'.delayed = s.delayed) (e1 : begins evs = 0) (e2 : ends evs = 0) (e3 : starts evs = 0)
    (e4 : panics evs = 0) : Inv (h ++ evs) s' := by
  obtain ⟨a1, a2, a3, a4, a5, a6, a7, a8, a9⟩ := i
  constructor <;>
    simp only [begins_append, ends_append, starts_append, panics_append, h1, h2, h3, h4, h5, e1, e2, e3, e4,
      Nat.add_zero] <;> assumption

/-- A goroutine moves on. -/
theorem Inv.move {h : List Ev} {s s' : State} {evs : List Ev} {l : Nat} {v : LPc} (i : Inv h s)
    (hl : s.loop l ≠ .off) (hm : s.loop l ≠ .make) (hv : v ≠ .make)
    (h1 : s'.loop = upd s.loop l v) (h2 : s'.nloop = s.nloop) (h3 : s'.ntk = s.ntk) (h4 : s'.ticker = s.ticker)
    (h5 : s'.delayed = s.delayed) (hk : ∀ k, v = .recv k → k < s.ntk)
    (e1 : begins evs + (if isRunPc (s.loop l) then 1 else 0) = ends evs + (if isRunPc v then 1 else 0))
    (e3 : starts evs = 0)
    (e4 : panics evs + (if isRec (s.loop l) then 1 else 0) = if isRec v then 1 else 0) : Inv (h ++ evs) s' := by
  obtain ⟨a1, a2, a3, a4, a5, a6, a7, a8, a9⟩ := i
  have hln : l < s.nloop := by
    rcases Nat.lt_or_ge l s.nloop with h' | h'
    · exact h'
    · exact absurd (a1 l h') hl
  have c1 := cnt_upd s.loop s.nloop l v isRunPc hln
  have c2 := cnt_upd s.loop s.nloop l v isMake hln
  have c3 := cnt_upd s.loop s.nloop l v isRec hln
  have m1 : isMake (s.loop l) = false := by cases hx : s.loop l <;> simp_all [isMake]
  have m2 : isMake v = false := by cases v <;> simp_all [isMake]
  simp only [m1, m2] at c2
  have hp := a8 l hl hm
  constructor
  · intro l' hl'; rw [h1, upd_of_ne _ _ (by omega)]; exact a1 l' (by omega)
  · rw [begins_append, ends_append, h1, h2]; omega
  · rw [h1, h2, h3]; simp at c2; omega
  · rw [starts_append, panics_append, h1, h2, h5]; omega
  · rw [h3, h4]; exact a5
  · intro l' k hk'
    rw [h1, upd_apply] at hk'; rw [h3]
    split at hk'
    · exact hk k hk'
    · exact a6 l' k hk'
  · rw [h3, h4]; exact a7
  · intro _ _ _; rw [h3]; exact hp
  · intro _; rw [h3]; exact hp

/-- `startTickTask`. -/
theorem Inv.spawn {h : List Ev} {s : State} (c : Cfg) (e : Ev) (i : Inv h s)
    (e1 : begins [e] = 0) (e2 : ends [e] = 0) (e3 : starts [e] + panics [e] = 1) :
    Inv (h ++ [e]) (spawn c s) := by
  obtain ⟨a1, a2, a3, a4, a5, a6, a7, a8, a9⟩ := i
  unfold TickTask.spawn
  split
  · constructor <;>
      simp only [begins_append, ends_append, starts_append, panics_append, e1, e2, Nat.add_zero] <;>
      first | assumption | omega
  · have c1 := cnt_new s.loop s.nloop .make isRunPc
    have c2 := cnt_new s.loop s.nloop .make isMake
    have c3 := cnt_new s.loop s.nloop .make isRec
    simp [isRunPc, isMake, isRec] at c1 c2 c3
    constructor <;>
      simp only [begins_append, ends_append, starts_append, panics_append, e1, e2, Nat.add_zero]
    · intro l hl; rw [upd_of_ne _ _ (by omega)]; exact a1 l (by omega)
    · omega
    · omega
    · omega
    · exact a5
    · intro l k hk; rw [upd_apply] at hk; split at hk
      · cases hk
      · exact a6 l k hk
    · exact a7
    · intro l hl hm; rw [upd_apply] at hl hm; split at hl
      · simp_all
      · exact a8 l hl (by simp_all)
    · exact a9

/-- The history may be exchanged for one with the same counts. -/
theorem Inv.counts {h h' : List Ev} {s : State} (i : Inv h s) (e1 : begins h' = begins h) (e2 : ends h' = ends h)
    (e3 : starts h' + panics h' = starts h + panics h) : Inv h' s := by
  obtain ⟨a1, a2, a3, a4, a5, a6, a7, a8, a9⟩ := i
  exact ⟨a1, by omega, a3, by omega, a5, a6, a7, a8, by rw [e1]; exact a9⟩

theorem inv_client {c : Cfg} {h : List Ev} {s s' : State} {p : Nat} {evs : List Ev} (i : Inv h s)
    (hs : client c s p = some (s', evs)) : Inv (h ++ evs) s' := by
  unfold client at hs
  split at hs
  · cases hs
  · split at hs
    · cases hs
    · simp only [Option.some.injEq, Prod.mk.injEq] at hs; obtain ⟨rfl, rfl⟩ := hs
      exact i.frame rfl rfl rfl rfl rfl rfl rfl rfl rfl
  · split at hs <;> (simp only [Option.some.injEq, Prod.mk.injEq] at hs; obtain ⟨rfl, rfl⟩ := hs) <;>
      exact i.frame rfl rfl rfl rfl rfl rfl rfl rfl rfl
  · simp only [Option.some.injEq, Prod.mk.injEq] at hs; obtain ⟨rfl, rfl⟩ := hs
    exact i.frame rfl rfl rfl rfl rfl rfl rfl rfl rfl
  · simp only [Option.some.injEq, Prod.mk.injEq] at hs; obtain ⟨rfl, rfl⟩ := hs
    have := i.spawn c (.started p) rfl rfl rfl
    have := this.frame (s' := { TickTask.spawn c s with cl := upd s.cl p (.unlock true) }) (evs := [])
      rfl rfl rfl rfl rfl rfl rfl rfl rfl
    simpa using this
  · simp only [Option.some.injEq, Prod.mk.injEq] at hs; obtain ⟨rfl, rfl⟩ := hs
    exact i.frame rfl rfl rfl rfl rfl rfl rfl rfl rfl
  · split at hs <;> (simp only [Option.some.injEq, Prod.mk.injEq] at hs; obtain ⟨rfl, rfl⟩ := hs) <;>
      exact i.frame rfl rfl rfl rfl rfl rfl rfl rfl rfl
  · split at hs <;> (simp only [Option.some.injEq, Prod.mk.injEq] at hs; obtain ⟨rfl, rfl⟩ := hs) <;>
      exact i.frame rfl rfl rfl rfl rfl rfl rfl rfl rfl
  · simp only [Option.some.injEq, Prod.mk.injEq] at hs; obtain ⟨rfl, rfl⟩ := hs
    exact i.frame rfl rfl rfl rfl rfl rfl rfl rfl rfl

theorem inv_loop {c : Cfg} {h : List Ev} {s s' : State} {l : Nat} {bad skip : Bool} {evs : List Ev} (i : Inv h s)
    (hs : loopStep c s l bad skip = some (s', evs)) : Inv (h ++ evs) s' := by
  unfold loopStep at hs
  split at hs
  · cases hs
  · rename_i hpc
    split at hs <;> (simp only [Option.some.injEq, Prod.mk.injEq] at hs; obtain ⟨rfl, rfl⟩ := hs)
    · obtain ⟨a1, a2, a3, a4, a5, a6, a7, a8, a9⟩ := i
      have hln : l < s.nloop := by
        rcases Nat.lt_or_ge l s.nloop with h' | h'
        · exact h'
        · rw [a1 l h'] at hpc; cases hpc
      have c1 := cnt_upd s.loop s.nloop l .pre isRunPc hln
      have c2 := cnt_upd s.loop s.nloop l .pre isMake hln
      have c3 := cnt_upd s.loop s.nloop l .pre isRec hln
      rw [hpc] at c1 c2 c3
      simp [isRunPc, isMake, isRec] at c1 c2 c3
      simp only [List.append_nil]
      constructor
      · intro l' hl'; simp only at hl' ⊢; rw [upd_of_ne _ _ (by omega)]; exact a1 l' hl'
      · simp only; omega
      · simp only; omega
      · simp only; omega
      · intro k hk; simp only [Option.some.injEq] at hk ⊢; omega
      · intro l' k hk; simp only at hk ⊢; rw [upd_apply] at hk; split at hk
        · cases hk
        · have := a6 l' k hk; omega
      · simp
      · intro _ _ _; simp
      · intro _; simp
    · exact i.frame rfl rfl rfl rfl rfl rfl rfl rfl rfl
  · rename_i hpc
    repeat' split at hs
    all_goals (simp only [Option.some.injEq, Prod.mk.injEq] at hs; obtain ⟨rfl, rfl⟩ := hs)
    all_goals
      refine i.move ?_ ?_ ?_ rfl rfl rfl rfl rfl ?_ ?_ ?_ ?_ <;>
        simp [hpc, isRunPc, isRec, begins, ends, starts, panics]
  · rename_i hpc
    repeat' split at hs
    all_goals (simp only [Option.some.injEq, Prod.mk.injEq] at hs; obtain ⟨rfl, rfl⟩ := hs)
    all_goals
      refine i.move ?_ ?_ ?_ rfl rfl rfl rfl rfl ?_ ?_ ?_ ?_ <;>
        simp [hpc, isRunPc, isRec, begins, ends, starts, panics]
  · rename_i hpc
    repeat' split at hs
    all_goals (simp only [Option.some.injEq, Prod.mk.injEq] at hs; obtain ⟨rfl, rfl⟩ := hs)
    all_goals
      refine i.move ?_ ?_ ?_ rfl rfl rfl rfl rfl ?_ ?_ ?_ ?_ <;>
        simp [hpc, isRunPc, isRec, begins, ends, starts, panics]
  · rename_i hpc
    split at hs <;> (simp only [Option.some.injEq, Prod.mk.injEq] at hs; obtain ⟨rfl, rfl⟩ := hs)
    · exact i.frame rfl rfl rfl rfl rfl rfl rfl rfl rfl
    · -- the panic was counted when it happened: count it at the new goroutine instead
      obtain ⟨a1, a2, a3, a4, a5, a6, a7, a8, a9⟩ := i
      have hln : l < s.nloop := by
        rcases Nat.lt_or_ge l s.nloop with h' | h'
        · exact h'
        · rw [a1 l h'] at hpc; cases hpc
      have hp := a8 l (by rw [hpc]; simp) (by rw [hpc]; simp)
      have c1 := cnt_upd s.loop s.nloop l .read isRunPc hln
      have c2 := cnt_upd s.loop s.nloop l .read isMake hln
      have c3 := cnt_upd s.loop s.nloop l .read isRec hln
      rw [hpc] at c1 c2 c3
      simp [isRunPc, isMake, isRec] at c1 c2 c3
      simp only [List.append_nil]
      unfold TickTask.spawn
      split
      · constructor
        · intro l' hl'; simp only at hl' ⊢; rw [upd_of_ne _ _ (by omega)]; exact a1 l' hl'
        · simp only; omega
        · simp only; omega
        · simp only; omega
        · exact a5
        · intro l' k hk; simp only at hk ⊢; rw [upd_apply] at hk; split at hk
          · cases hk
          · exact a6 l' k hk
        · exact a7
        · intro _ _ _; exact hp
        · intro _; exact hp
      · have d1 := cnt_new (upd s.loop l .read) s.nloop .make isRunPc
        have d2 := cnt_new (upd s.loop l .read) s.nloop .make isMake
        have d3 := cnt_new (upd s.loop l .read) s.nloop .make isRec
        simp [isRunPc, isMake, isRec] at d1 d2 d3
        constructor
        · intro l' hl'; simp only at hl' ⊢
          rw [upd_of_ne _ _ (by omega), upd_of_ne _ _ (by omega)]; exact a1 l' (by omega)
        · simp only; omega
        · simp only; omega
        · simp only; omega
        · exact a5
        · intro l' k hk; simp only at hk ⊢; rw [upd_apply, upd_apply] at hk; split at hk
          · cases hk
          · split at hk
            · cases hk
            · exact a6 l' k hk
        · exact a7
        · intro _ _ _; exact hp
        · intro _; exact hp
  · rename_i hpc
    split at hs
    · cases hs
    · rename_i k hk
      simp only [Option.some.injEq, Prod.mk.injEq] at hs; obtain ⟨rfl, rfl⟩ := hs
      refine i.move ?_ ?_ ?_ rfl rfl rfl rfl rfl (by intro k' h'; cases h'; exact i.tick _ hk) ?_ ?_ ?_ <;>
        simp [hpc, isRunPc, isRec, begins, ends, starts, panics]
  · rename_i k hpc
    split at hs
    · simp only [Option.some.injEq, Prod.mk.injEq] at hs; obtain ⟨rfl, rfl⟩ := hs
      refine i.move ?_ ?_ ?_ rfl rfl rfl rfl rfl ?_ ?_ ?_ ?_ <;>
        simp [hpc, isRunPc, isRec, begins, ends, starts, panics]
    · cases hs

theorem inv_step {c : Cfg} {h : List Ev} {s s' : State} {a : Act} {evs : List Ev} (i : Inv h s)
    (hs : step c s a = some (s', evs)) : Inv (h ++ evs) s' := by
  unfold step at hs
  split at hs
  · cases hs
  · split at hs
    · split at hs
      · split at hs <;> (simp only [Option.some.injEq, Prod.mk.injEq] at hs; obtain ⟨rfl, rfl⟩ := hs) <;>
          exact i.frame rfl rfl rfl rfl rfl rfl rfl rfl rfl
      · cases hs
    · split at hs
      · split at hs <;> (simp only [Option.some.injEq, Prod.mk.injEq] at hs; obtain ⟨rfl, rfl⟩ := hs) <;>
          exact i.frame rfl rfl rfl rfl rfl rfl rfl rfl rfl
      · cases hs
    · exact inv_client i hs
    · split at hs
      · cases hs
      · simp only [Option.some.injEq, Prod.mk.injEq] at hs; obtain ⟨rfl, rfl⟩ := hs
        obtain ⟨a1, a2, a3, a4, a5, a6, a7, a8, a9⟩ := i
        have c1 := cnt_new s.loop s.nloop .make isRunPc
        have c2 := cnt_new s.loop s.nloop .make isMake
        have c3 := cnt_new s.loop s.nloop .make isRec
        simp [isRunPc, isMake, isRec] at c1 c2 c3
        simp only [List.append_nil]
        constructor
        · intro l hl; simp only at hl ⊢; rw [upd_of_ne _ _ (by omega)]; exact a1 l (by omega)
        · simp only; omega
        · simp only; omega
        · simp only; omega
        · exact a5
        · intro l k hk; simp only at hk ⊢; rw [upd_apply] at hk; split at hk
          · cases hk
          · exact a6 l k hk
        · exact a7
        · intro l hl hm; simp only at hl hm ⊢; rw [upd_apply] at hl hm; split at hl
          · simp_all
          · exact a8 l hl (by simp_all)
        · exact a9
    · split at hs
      · simp only [Option.some.injEq, Prod.mk.injEq] at hs; obtain ⟨rfl, rfl⟩ := hs
        exact i.frame rfl rfl rfl rfl rfl rfl rfl rfl rfl
      · cases hs
    · exact inv_loop i hs

theorem inv_run {c : Cfg} {h : List Ev} {s : State} (hr : (sys c).Run h s) : Inv h s :=
  Lts.Run.invariant (P := Inv) inv_init (fun _ _ _ _ _ _ hi hs => inv_step hi hs) hr

end Braid.TickTask
