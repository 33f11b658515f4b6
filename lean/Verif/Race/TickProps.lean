import Verif.Race.TickLemmas
import Verif.TickTask.Props

/-
C113: the plain variables of tick tasks.
-/
namespace Braid.Race
open Braid TickTask

/-- **C113**: the accesses are those of the model. A step that changes a plain variable of a task is recorded as a write
to it. -/
theorem C113_writes {c : Cfg} {s s1 : State} {a : Act} {evs : List Ev} (hs : (sys c).step s a = some (s1, evs)) :
    (s1.tstate ≠ s.tstate → ⟨.state, true⟩ ∈ tacc s a) ∧ (s1.ticker ≠ s.ticker → ⟨.ticker, true⟩ ∈ tacc s a) := by
  simp only [sys, step] at hs
  split at hs
  · cases hs
  cases a with
  | client p =>
    simp only [client, spawn] at hs
    repeat' split at hs
    all_goals first | (cases hs; done) | (rename_i hp; cases hs; simp [tacc, hp])
  | loop l bad skip =>
    simp only [loopStep, spawn] at hs
    repeat' split at hs
    all_goals first | (cases hs; done) | skip
    all_goals (cases hs; simp_all [tacc])
  | callStart p =>
    dsimp only at hs
    repeat' split at hs
    all_goals (cases hs <;> simp)
  | callStop p =>
    dsimp only at hs
    repeat' split at hs
    all_goals (cases hs <;> simp)
  | due => dsimp only at hs; split at hs <;> cases hs; simp
  | fire k => dsimp only at hs; split at hs <;> cases hs; simp

/-- **C113**, a part that holds: nobody races for the variables of a task that nobody stops and that has not panicked,
however many goroutines start it. What is missing: stops and panics. -/
theorem C113_never_stopped_partial {c : Cfg} {h : List Ev} {s : State} (hr : (sys c).Run h s)
    (hn : ∀ p, Ev.stopCall p ∉ h) (hp : panics h = 0) (a b : Act) : ¬ RaceAt (sys c) twho tacc s a b := by
  intro hrace
  have hs := no_stop hr hn
  have h0 := no_stop_stops hr hn
  have hi := inv_run hr
  have si := sinv_run hr
  have hle : s.nloop ≤ 1 := by have := hi.tot; have := si.all; omega
  have hlt : ∀ l, s.loop l ≠ .off → l < s.nloop := by
    intro l hl
    rcases Nat.lt_or_ge l s.nloop with h | h
    · exact h
    · exact absurd (hi.off l h) hl
  refine no_tick_race hrace ?_ (fun l p _ => (hs p).2.1) ?_
  · intro p q hne _ _ h1 h2
    have c1 : crit (s.cl p) = true := by
      rcases h1 with (h | h) | h | h
      · simp [h, crit]
      · simp [h, crit]
      · exact absurd h (hs p).1
      · exact absurd h (hs p).2.2
    have c2 : crit (s.cl q) = true := by
      rcases h2 with (h | h) | h | h
      · simp [h, crit]
      · simp [h, crit]
      · exact absurd h (hs q).1
      · exact absurd h (hs q).2.2
    exact hne (si.one p q c1 c2)
  · intro l k hne hl
    have := hlt l (by simp [hl])
    constructor <;> intro hk <;> (have := hlt k (by simp [hk]); omega)

/-- **C113**, another part that holds: disciplined callers (C61, C62) do not race for the variables of a task that has not
panicked, however often they stop and restart it. What is missing: other callers, and panics. -/
theorem C113_disciplined_partial {c : Cfg} {h : List Ev} {s : State} (hr : DiscRun c h s) (hp : panics h = 0) (a b : Act) :
    ¬ RaceAt (sys c) twho tacc s a b := by
  intro hrace
  obtain ⟨_, ⟨φ, D⟩ | hx⟩ := discRun_good hr hp
  · obtain ⟨d, hd, _⟩ := D.is
    have parked : ∀ l, Parked s l → s.loop l ≠ .make ∧ s.loop l ≠ .read := by
      intro l hl
      rcases hl with h | ⟨k, h, _⟩ <;> simp [h]
    have using' : ∀ L K, Using s L K → s.loop L ≠ .make := by
      intro L K hu
      rcases hu with h | h | h | h | h <;> simp [h]
    refine no_tick_race hrace (fun p q hne h1 h2 _ _ => hne (D.one p q h1 h2)) ?_ ?_
    · intro l p hl hcl
      have := D.cl p
      rw [hcl] at this
      obtain ⟨_, L, K, rfl⟩ := this
      by_cases e : l = L
      · subst e; exact using' _ _ hd.2.2.1 hl
      · exact (parked l (hd.2.2.2.1 l e)).1 hl
    · intro l k hne hl
      cases φ with
      | quiet => exact parked k (hd.2.1 k)
      | delayed => exact parked k (hd.2.1 k)
      | starting L =>
        by_cases e : k = L
        · subst e; exact absurd hl (parked l (hd.2.2.2.1 l hne)).1
        · exact parked k (hd.2.2.2.1 k e)
      | live L K =>
        by_cases e : l = L
        · subst e; exact absurd hl (using' _ _ hd.2.2.1)
        · exact absurd hl (parked l (hd.2.2.2.1 l e)).1
      | stopped L K =>
        by_cases e : l = L
        · subst e; exact absurd hl (using' _ _ hd.2.2.1)
        · exact absurd hl (parked l (hd.2.2.2.1 l e)).1
  · obtain ⟨s1, e1, s2, e2, h1, _⟩ := hrace
    have := step_crashed hx a (c := c)
    rw [show (sys c).step s a = step c s a from rfl, this] at h1
    cases h1

/-- **C113** is violated: `stop` does not lock, so it reads the state of a task that another goroutine is starting. -/
theorem C113_state_refuted : ∃ h s, (sys usual).Run h s ∧ RaceAt (sys usual) twho tacc s (.client 0) (.client 1) :=
  ⟨_, _, Lts.run_of_exec (M := sys usual) (as := [.callStart 0, .client 0, .client 0, .callStop 1]) rfl,
    _, _, _, _, rfl, rfl, by decide, ⟨.state, true⟩, List.mem_cons_self .., ⟨.state, false⟩, List.mem_cons_self .., rfl, .inl rfl⟩

/-- **C113** is violated by a single caller, too, who starts a task and stops it: `stop` reads the ticker while the
goroutine of the task sets it. -/
theorem C113_ticker_refuted : ∃ h s, (sys usual).Run h s ∧ (∀ p, p ≠ 0 → s.cl p = .idle) ∧
    RaceAt (sys usual) twho tacc s (.loop 0 false false) (.client 0) :=
  ⟨_, _, Lts.run_of_exec (M := sys usual) (as := startActs ++ [.callStop 0, .client 0]) rfl,
    fun p hp => by cases p with | zero => exact absurd rfl hp | succ n => rfl,
    _, _, _, _, rfl, rfl, by decide, ⟨.ticker, true⟩, List.mem_cons_self .., ⟨.ticker, false⟩, List.mem_cons_self .., rfl,
    .inl rfl⟩

/-- Two goroutines start a task that nobody stops; one is about to set its state. -/
example : ∃ h s, (sys usual).Run h s ∧ (∀ p, Ev.stopCall p ∉ h) ∧ panics h = 0 ∧ tacc s (.client 0) = [⟨.state, true⟩] ∧
    s.cl 1 = .lock :=
  ⟨_, _, Lts.run_of_exec (M := sys usual) (as := [.callStart 0, .client 0, .client 0, .callStart 1]) rfl,
    by simp, rfl, rfl, rfl⟩

/-- A disciplined caller has started a task, and its goroutine is about to set the ticker. -/
example : ∃ h s, DiscRun usual h s ∧ panics h = 0 ∧ tacc s (.loop 0 false false) = [⟨.ticker, true⟩] := by
  have r1 := DiscRun.step (c := usual) DiscRun.init (a := .callStart 0)
    ⟨fun _ => rfl, .inr ⟨rfl, fun _ => .inl rfl⟩⟩ rfl
  have r2 := discRun_exec (as := [.client 0, .client 0, .client 0, .client 0, .client 0]) r1 (by simp [Allowed]) rfl
  exact ⟨_, _, r2, rfl, rfl⟩

end Braid.Race
