import Verif.Race.Tick
import Verif.TickTask.DiscStep
import Verif.TickTask.Starts

/-
Helper lemmas for C113.
-/
namespace Braid.Race
open Braid TickTask

/-- The steps of a task that use its plain variables. -/
inductive TUses (s s1 : State) (x : Acc TVar) : Act → Prop
  | state (p : Nat) (h1 : x.var = .state) (h2 : s.cl p ≠ .idle) (h3 : ∀ q, q ≠ p → s1.cl q = s.cl q)
      (h4 : (s.cl p = .check ∨ s.cl p = .set) ∨ s.cl p = .scheck ∨ s.cl p = .sset) :
      TUses s s1 x (.client p)
  | tick (p : Nat) (h1 : x.var = .ticker) (h2 : s.cl p = .sticker) (h3 : x.write = false) (h4 : s1.loop = s.loop) :
      TUses s s1 x (.client p)
  | make (l : Nat) (bad skip : Bool) (h1 : x.var = .ticker) (h2 : s.loop l = .make) (h3 : s1.cl = s.cl)
      (h4 : ∀ k, k ≠ l → s1.loop k = s.loop k) : TUses s s1 x (.loop l bad skip)
  | read (l : Nat) (bad skip : Bool) (h1 : x.var = .ticker) (h2 : s.loop l = .read) (h3 : x.write = false)
      (h4 : ∀ k, k ≠ l → s1.loop k = s.loop k) : TUses s s1 x (.loop l bad skip)

theorem tuses {c : Cfg} {s s1 : State} {a : Act} {evs : List Ev} (hs : (sys c).step s a = some (s1, evs)) {x : Acc TVar}
    (hx : x ∈ tacc s a) : TUses s s1 x a := by
  simp only [sys, step] at hs
  split at hs
  · cases hs
  cases a with
  | client p =>
    have cl : ∀ {v : CPc}, ∀ q, q ≠ p → upd s.cl p v q = s.cl q := fun q hq => upd_of_ne _ _ hq
    simp only [tacc] at hx
    simp only [client] at hs
    cases hp : s.cl p <;> rw [hp] at hx hs <;> simp only [List.mem_singleton, List.not_mem_nil] at hx <;> subst hx <;>
      dsimp only at hs
    · split at hs <;> cases hs <;> exact .state p rfl (by simp [hp]) cl (by simp [hp])
    · cases hs; exact .state p rfl (by simp [hp]) cl (by simp [hp])
    · split at hs <;> cases hs <;> exact .state p rfl (by simp [hp]) cl (by simp [hp])
    · split at hs <;> cases hs <;> exact .tick p rfl hp rfl rfl
    · cases hs; exact .state p rfl (by simp [hp]) cl (by simp [hp])
  | loop l bad skip =>
    simp only [tacc] at hx
    simp only [loopStep] at hs
    cases hp : s.loop l <;> rw [hp] at hx hs <;> simp only [List.mem_singleton, List.not_mem_nil] at hx <;> subst hx <;>
      dsimp only at hs
    · split at hs <;> cases hs
      · exact .make l bad skip rfl hp rfl (fun k hk => upd_of_ne _ _ hk)
      · exact .make l bad skip rfl hp rfl (fun _ _ => rfl)
    · split at hs <;> cases hs
      exact .read l bad skip rfl hp rfl (fun k hk => upd_of_ne _ _ hk)
  | _ => simp [tacc] at hx

/-- A task that uses no ticker variable in two goroutines. -/
theorem no_tick_race {c : Cfg} {s : State} {a b : Act} (hr : RaceAt (sys c) twho tacc s a b)
    (hst : ∀ p q, p ≠ q → s.cl p ≠ .idle → s.cl q ≠ .idle → ((s.cl p = .check ∨ s.cl p = .set) ∨ s.cl p = .scheck ∨ s.cl p = .sset) →
      ((s.cl q = .check ∨ s.cl q = .set) ∨ s.cl q = .scheck ∨ s.cl q = .sset) → False)
    (hmt : ∀ l p, s.loop l = .make → s.cl p ≠ .sticker)
    (hml : ∀ l k, l ≠ k → s.loop l = .make → s.loop k ≠ .make ∧ s.loop k ≠ .read) : False := by
  obtain ⟨s1, e1, s2, e2, h1, h2, hw, x, hx, y, hy, hv, hwr⟩ := hr
  have u1 := tuses h1 hx
  have u2 := tuses h2 hy
  cases u1 with
  | state p g1 g2 g3 g4 =>
    cases u2 with
    | state q f1 f2 f3 f4 =>
      have hne : p ≠ q := by intro e; subst e; exact hw rfl
      rw [g3 q (Ne.symm hne)] at f2 f4
      exact hst p q hne g2 f2 g4 f4
    | tick q f1 => rw [g1, f1] at hv; cases hv
    | make l _ _ f1 => rw [g1, f1] at hv; cases hv
    | read l _ _ f1 => rw [g1, f1] at hv; cases hv
  | tick p g1 g2 g3 g4 =>
    cases u2 with
    | state q f1 => rw [g1, f1] at hv; cases hv
    | tick q f1 f2 f3 => rw [g3, f3] at hwr; simp at hwr
    | make l _ _ f1 f2 => rw [g4] at f2; exact hmt l p f2 g2
    | read l _ _ f1 f2 f3 => rw [g3, f3] at hwr; simp at hwr
  | make l bad skip g1 g2 g3 g4 =>
    cases u2 with
    | state q f1 => rw [g1, f1] at hv; cases hv
    | tick q f1 f2 => rw [g3] at f2; exact hmt l q g2 f2
    | make k _ _ f1 f2 =>
      have hne : l ≠ k := by intro e; subst e; exact hw rfl
      rw [g4 k (Ne.symm hne)] at f2
      exact (hml l k hne g2).1 f2
    | read k _ _ f1 f2 =>
      have hne : l ≠ k := by intro e; subst e; exact hw rfl
      rw [g4 k (Ne.symm hne)] at f2
      exact (hml l k hne g2).2 f2
  | read l bad skip g1 g2 g3 g4 =>
    cases u2 with
    | state q f1 => rw [g1, f1] at hv; cases hv
    | tick q f1 f2 f3 => rw [g3, f3] at hwr; simp at hwr
    | make k _ _ f1 f2 =>
      have hne : l ≠ k := by intro e; subst e; exact hw rfl
      rw [g4 k (Ne.symm hne)] at f2
      exact (hml k l (Ne.symm hne) f2).2 g2
    | read k _ _ f1 f2 f3 => rw [g3, f3] at hwr; simp at hwr

/-- Without a call of `stop` nobody is in it. -/
theorem no_stop {c : Cfg} {h : List Ev} {s : State} (hr : (sys c).Run h s) :
    (∀ p, Ev.stopCall p ∉ h) → ∀ p, s.cl p ≠ .scheck ∧ s.cl p ≠ .sticker ∧ s.cl p ≠ .sset := by
  refine Lts.Run.invariant (P := fun h s => (∀ p, Ev.stopCall p ∉ h) → ∀ p, s.cl p ≠ .scheck ∧ s.cl p ≠ .sticker ∧ s.cl p ≠ .sset)
    (by intro _ p; simp [sys, init]) (fun h s a s' evs _ hi hs => ?_) hr
  intro hn q
  have hq := hi (fun p hp => hn p (by simp [hp]))
  have he : ∀ p, Ev.stopCall p ∉ evs := fun p hp => hn p (by simp [hp])
  simp only [sys, step] at hs
  split at hs
  · cases hs
  cases a with
  | callStart p =>
    dsimp only at hs
    split at hs
    · split at hs <;> cases hs
      · simp only [upd_apply]; split
        · simp
        · exact hq q
      · exact hq q
    · cases hs
  | callStop p =>
    dsimp only at hs
    split at hs
    · split at hs <;> cases hs <;> simp at he
    · cases hs
  | client p =>
    have hp := hq p
    simp only [client] at hs
    split at hs
    · cases hs
    · split at hs <;> cases hs
      simp only [upd_apply]; split
      · simp
      · exact hq q
    · split at hs <;> cases hs <;> (simp only [upd_apply]; split; simp; exact hq q)
    · cases hs; (simp only [upd_apply]; split; simp; exact hq q)
    · cases hs
      simp only [upd_apply]; split
      · simp
      · exact hq q
    · cases hs; (simp only [upd_apply]; split; simp; exact hq q)
    · rename_i e; exact absurd e hp.1
    · rename_i e; exact absurd e hp.2.1
    · rename_i e; exact absurd e hp.2.2
  | due => dsimp only at hs; split at hs <;> cases hs; exact hq q
  | fire k => dsimp only at hs; split at hs <;> cases hs; exact hq q
  | loop l bad skip =>
    have : s'.cl = s.cl := by
      simp only [loopStep, spawn] at hs
      repeat' split at hs
      all_goals (cases hs <;> rfl)
    rw [this]; exact hq q

theorem no_stop_stops {c : Cfg} {h : List Ev} {s : State} (hr : (sys c).Run h s) (hn : ∀ p, Ev.stopCall p ∉ h) :
    stops h = 0 := by
  induction hr with
  | init => rfl
  | step hr hs ih =>
    rename_i h s a s' evs
    have hn1 : ∀ p, Ev.stopCall p ∉ h := fun p hp => hn p (by simp [hp])
    have he : ∀ p, Ev.stopCall p ∉ evs := fun p hp => hn p (by simp [hp])
    rw [stops_append, ih hn1]
    have hq := no_stop hr hn1
    simp only [sys, step] at hs
    split at hs
    · cases hs
    cases a with
    | callStart p =>
      dsimp only at hs
      split at hs
      · split at hs <;> cases hs <;> rfl
      · cases hs
    | callStop p =>
      dsimp only at hs
      split at hs
      · split at hs <;> cases hs <;> simp at he
      · cases hs
    | client p =>
      have hp := hq p
      simp only [client] at hs
      split at hs
      · cases hs
      · split at hs <;> cases hs; rfl
      · split at hs <;> cases hs <;> rfl
      · cases hs; rfl
      · cases hs; rfl
      · cases hs; rfl
      · rename_i e; exact absurd e hp.1
      · rename_i e; exact absurd e hp.2.1
      · rename_i e; exact absurd e hp.2.2
    | due => dsimp only at hs; split at hs <;> cases hs; rfl
    | fire k => dsimp only at hs; split at hs <;> cases hs; rfl
    | loop l bad skip =>
      simp only [loopStep] at hs
      repeat' split at hs
      all_goals (cases hs <;> rfl)

end Braid.Race
