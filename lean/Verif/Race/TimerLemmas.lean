import Verif.Race.Timer
import Verif.Race.TimerSpec
import Verif.Timer.Lemmas

/-
Helper lemmas for C122.
-/
namespace Braid.Race
open Braid Timer Timer.Spec Race.Spec

theorem inReset_append {u t : Nat} {h k : List Ev} (h1 : InReset u t h) (hk : ∀ b, .resetRet u t b ∉ k) :
    InReset u t (h ++ k) := by
  obtain ⟨p, d, q, rfl, hq⟩ := h1
  exact ⟨p, d, q ++ k, by simp, fun b hb => (List.mem_append.1 hb).elim (hq b) (hk b)⟩

theorem inStop_append {u t : Nat} {h k : List Ev} (h1 : InStop u t h) (hk : ∀ b, .stopRet u t b ∉ k) :
    InStop u t (h ++ k) := by
  obtain ⟨p, q, rfl, hq⟩ := h1
  exact ⟨p, q ++ k, by simp, fun b hb => (List.mem_append.1 hb).elim (hq b) (hk b)⟩

theorem inReset_new {u t : Nat} {d : Int} {h : List Ev} : InReset u t (h ++ [.resetCall u t d]) := ⟨h, d, [], rfl, by simp⟩

theorem inStop_new {u t : Nat} {h : List Ev} : InStop u t (h ++ [.stopCall u t]) := ⟨h, [], rfl, by simp⟩

/-- The timer that is being stopped. -/
def stopOf : UPc → Option Nat
  | .stop t => some t
  | .stop2 t => some t
  | .stop3 t => some t
  | _ => none

/-- The timer that is being reset. -/
def resetOf : UPc → Option Nat
  | .reset t _ => some t
  | .reset2 t => some t
  | .reset3 t => some t
  | _ => none

theorem stop_run {h : List Ev} {s : State} (hr : Timer.sys.Run h s) : ∀ u t, stopOf (s.usr u) = some t → InStop u t h := by
  refine hr.invariant (P := fun h s => ∀ u t, stopOf (s.usr u) = some t → InStop u t h)
    (by simp [Timer.sys, Timer.init, stopOf]) ?_
  intro h s a s' evs hr' hi hs u t hw
  replace hs : Timer.step s a = some (s', evs) := hs
  have app := fun k => @inStop_append u t h k
  have new := @inStop_new u t h
  have h0 := hi u t
  cases a <;> t_cases hs
  all_goals try simp only [upd_apply] at hw
  all_goals first
    | exact app _ (h0 hw) (by simp)
    | (split at hw
       · first
         | (cases hw; done)
         | (subst_vars; refine app _ (h0 ?_) (by simp); grind [stopOf])
         | (subst_vars; simp only [stopOf, Option.some.injEq] at hw; subst hw; exact new)
       · refine app _ (h0 hw) ?_
         simp
         try (intros; contradiction))

theorem reset_run {h : List Ev} {s : State} (hr : Timer.sys.Run h s) : ∀ u t, resetOf (s.usr u) = some t → InReset u t h := by
  refine hr.invariant (P := fun h s => ∀ u t, resetOf (s.usr u) = some t → InReset u t h)
    (by simp [Timer.sys, Timer.init, resetOf]) ?_
  intro h s a s' evs hr' hi hs u t hw
  replace hs : Timer.step s a = some (s', evs) := hs
  have app := fun k => @inReset_append u t h k
  have new := fun d => @inReset_new u t d h
  have h0 := hi u t
  cases a <;> t_cases hs
  all_goals try simp only [upd_apply] at hw
  all_goals first
    | exact app _ (h0 hw) (by simp)
    | (split at hw
       · first
         | (cases hw; done)
         | (subst_vars; refine app _ (h0 ?_) (by simp); grind [resetOf])
         | (subst_vars; simp only [resetOf, Option.some.injEq] at hw; subst hw; exact new _)
       · refine app _ (h0 hw) ?_
         simp
         try (intros; contradiction))

/-- Goroutines without a ticker have queued one tick at most. -/
structure InvR (h : List Ev) (s : State) : Prop where
  one : ∀ t, (s.tm t).g = .mk → (times t h).length ≤ 1
  zero : ∀ t, (∃ a, (s.tm t).g = .due a) ∨ (s.tm t).g = .first ∨ (s.tm t).g = .off → (times t h).length = 0

theorem invR_run {h : List Ev} {s : State} (hr : Timer.sys.Run h s) : InvR h s := by
  refine hr.invariant (P := InvR) (by constructor <;> simp [Timer.sys, Timer.init, times]) ?_
  intro h s a s' evs hr' hi hs
  replace hs : Timer.step s a = some (s', evs) := hs
  have ha := invA_run hr'
  obtain ⟨i3, i4⟩ := hi
  have hof : ∀ t, s.n ≤ t → (times t h).length = 0 := fun t ht => i4 t (.inr (.inr (ha.calls t ht).2.2.2.2.1))
  have htk := ha.ticker
  clear ha hr' hr
  have ta := times_append
  have tq := times_queued
  have t0 : ∀ t, times t [] = [] := fun _ => rfl
  have t1 : ∀ t u t', times t [.stopCall u t'] = [] := fun _ _ _ => rfl
  have t2 : ∀ t u t' d, times t [.resetCall u t' d] = [] := fun _ _ _ _ => rfl
  have t3 : ∀ t u t' d, times t [.stopRet u t' d] = [] := fun _ _ _ _ => rfl
  have t4 : ∀ t u t' d, times t [.resetRet u t' d] = [] := fun _ _ _ _ => rfl
  have t5 : ∀ t u t' d e, times t [.made u t' d e] = [] := fun _ _ _ _ _ => rfl
  have t6 : ∀ t u, times t [.cbStart u] = [] := fun _ _ => rfl
  have t7 : ∀ t u, times t [.cbEnd u] = [] := fun _ _ => rfl
  have t8 : ∀ t, times t [.shutdown] = [] := fun _ => rfl
  have t9 : ∀ t, times t [.crash] = [] := fun _ => rfl
  cases a <;> t_cases hs <;> constructor <;> grind [upd_apply]

end Braid.Race
