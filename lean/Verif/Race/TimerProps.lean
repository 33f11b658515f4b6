import Verif.Race.TimerLemmas
import Verif.Timer.Props

/-
C122: data races for the timers of an actor.
-/
namespace Braid.Race
open Braid Timer Timer.Spec Race.Spec

/-- **C122**: the accesses are those of the model. A step that changes a plain variable of a timer is recorded as a write to
it. -/
theorem C122_writes {s s1 : State} {a : Act} {evs : List Ev} (hs : Timer.sys.step s a = some (s1, evs)) (t : Nat) (ht : t < s.n) :
    ((s1.tm t).interval ≠ (s.tm t).interval → ⟨.interval t, true⟩ ∈ timerAcc s a) ∧
    ((s1.tm t).ticker.isSome ≠ (s.tm t).ticker.isSome → ⟨.ticker t, true⟩ ∈ timerAcc s a) := by
  replace hs : Timer.step s a = some (s1, evs) := hs
  cases a <;> t_cases hs <;> constructor <;> grind [upd_apply, timerAcc]

/-- What a goroutine of a timer uses. -/
theorem g_acc {s : State} {t : Nat} {b : Bool} {x : Acc TimerVar} (hx : x ∈ timerAcc s (.g t b)) :
    (x.var = .interval t ∨ x.var = .ticker t) ∧ ((s.tm t).g = .mk ∨ x = ⟨.ticker t, false⟩) ∧
    (x.write = true → x.var = .ticker t) := by
  simp only [timerAcc] at hx
  split at hx
  · split at hx
    all_goals (simp at hx; grind)
  · simp at hx; grind
  · simp at hx

/-- What a caller of `Stop` or `Reset` uses. -/
theorem usr_acc {s : State} {u : Nat} {x : Acc TimerVar} (hx : x ∈ timerAcc s (.usr u)) :
    ∃ t, (x.var = .interval t ∨ x.var = .ticker t) ∧ (stopOf (s.usr u) = some t ∨ resetOf (s.usr u) = some t) ∧
    (x.write = true → x.var = .interval t ∧ resetOf (s.usr u) = some t) := by
  simp only [timerAcc] at hx
  split at hx
  all_goals try split at hx
  all_goals simp at hx
  all_goals grind [stopOf, resetOf]

/-- Steps of goroutines of timers leave the callers where they are. -/
theorem g_keeps {s s1 : State} {t : Nat} {b : Bool} {e : List Ev} (hs : Timer.sys.step s (.g t b) = some (s1, e)) :
    s1.usr = s.usr := by
  replace hs : Timer.step s (.g t b) = some (s1, e) := hs
  t_cases hs <;> rfl

/-- Steps of a caller leave the other callers and the goroutines of the timers where they are. -/
theorem usr_keeps {s s1 : State} {u : Nat} {e : List Ev} (hs : Timer.sys.step s (.usr u) = some (s1, e)) :
    (∀ v, v ≠ u → s1.usr v = s.usr v) ∧ ∀ t, (s1.tm t).g = (s.tm t).g := by
  replace hs : Timer.step s (.usr u) = some (s1, e) := hs
  t_cases hs <;> constructor <;> grind [upd_apply]

/-- **C122**, where the races are: whoever races for the plain variables of a timer is either in `Stop` (`CancelTimer`) or
`Reset` before two ticks of the timer were queued, or two goroutines are inside calls to the same timer, one of them in
`Reset`. -/
theorem C122_only_partial {h : List Ev} {s : State} (hr : Timer.sys.Run h s) {a b : Act}
    (hrace : RaceAt Timer.sys timerWho timerAcc s a b) :
    ∃ t, (Early t h ∧ ∃ u, InCall u t h) ∨ ∃ u u', u ≠ u' ∧ InReset u t h ∧ InCall u' t h := by
  obtain ⟨s1, e1, s2, e2, h1, h2, hw, x, hx, y, hy, hv, hc⟩ := hrace
  have hS := stop_run hr
  have hR := reset_run hr
  have call : ∀ u t, stopOf (s.usr u) = some t ∨ resetOf (s.usr u) = some t → InCall u t h :=
    fun u t h => h.elim (fun h => .inr (hS u t h)) fun h => .inl (hR u t h)
  have hO := (invR_run hr).one
  cases a with
  | g t c =>
    have hk := g_keeps h1
    obtain ⟨g1, g2, g3⟩ := g_acc hx
    cases b with
    | g t' c' =>
      obtain ⟨k1, k2, k3⟩ := g_acc hy
      have : t ≠ t' := fun h => hw (by simp [timerWho, h])
      grind
    | usr u =>
      obtain ⟨t', k1, k2, k3⟩ := usr_acc hy
      rw [hk] at k2 k3
      have ht : t' = t := by grind
      subst ht
      refine ⟨t', .inl ⟨hO t' ?_, u, call u t' k2⟩⟩
      grind
    | _ => simp [timerAcc] at hy
  | usr u =>
    obtain ⟨hk, hk'⟩ := usr_keeps h1
    obtain ⟨t, g1, g2, g3⟩ := usr_acc hx
    cases b with
    | g t' c' =>
      obtain ⟨k1, k2, k3⟩ := g_acc hy
      rw [hk'] at k2
      have ht : t' = t := by grind
      subst ht
      refine ⟨t', .inl ⟨hO t' ?_, u, call u t' g2⟩⟩
      grind
    | usr u' =>
      have hu : u' ≠ u := fun h => hw (by simp [timerWho, h])
      obtain ⟨t', k1, k2, k3⟩ := usr_acc hy
      rw [hk u' hu] at k2 k3
      have ht : t' = t := by grind
      subst ht
      rcases hc with hc | hc
      · exact ⟨t', .inr ⟨u, u', hu.symm, hR u t' (g3 hc).2, call u' t' k2⟩⟩
      · exact ⟨t', .inr ⟨u', u, hu, hR u' t' (k3 hc).2, call u t' g2⟩⟩
    | _ => simp [timerAcc] at hy
  | _ => simp [timerAcc] at hx

/-- **C122**, a part that holds: if one goroutine (say the actor itself) makes all calls, and it stops and resets a timer only
after two of its ticks, then nobody races for the timers. What is missing: other callers and earlier calls. -/
theorem C122_sole_partial {h : List Ev} {s : State} (hr : Timer.sys.Run h s) {u : Nat} (hu : Sole u h) (hl : Late h)
    (a b : Act) : ¬ RaceAt Timer.sys timerWho timerAcc s a b := by
  intro hrace
  obtain ⟨t, ⟨he, v, hv⟩ | ⟨v, w, hne, hv, hw⟩⟩ := C122_only_partial hr hrace
  · have mono : ∀ p q : List Ev, (times t p).length ≤ (times t (p ++ q)).length := by
      intro p q; rw [times_append, List.length_append]; exact Nat.le_add_right ..
    rcases hv with ⟨p, d, q, rfl, -⟩ | ⟨p, q, rfl, -⟩
    · have h1 := hl.2 p q v t d rfl
      have h2 := mono p (.resetCall v t d :: q)
      unfold Early at he; omega
    · have h1 := hl.1 p q v t rfl
      have h2 := mono p (.stopCall v t :: q)
      unfold Early at he; omega
  · apply hne
    have h1 : v = u := by
      obtain ⟨p, d, q, rfl, -⟩ := hv
      exact hu.2 v t d (by simp)
    have h2 : w = u := by
      rcases hw with ⟨p, d, q, rfl, -⟩ | ⟨p, q, rfl, -⟩
      · exact hu.2 w t d (by simp)
      · exact hu.1 w t (by simp)
    rw [h1, h2]

/-- **C122** is violated by an actor that makes a timer and cancels it: `Stop` reads the ticker while the goroutine of the timer
sets it. -/
theorem C122_cancel_refuted : ∃ h s, Timer.sys.Run h s ∧ Sole 0 h ∧ RaceAt Timer.sys timerWho timerAcc s (.g 0 false) (.usr 0) := by
  refine ⟨_, _, Lts.run_of_exec (M := Timer.sys) (as := [.onTimer 0 100, .stop 0 0, .usr 0, .usr 0]) rfl, ?_,
    _, _, _, _, rfl, rfl, by decide, ⟨.ticker 0, true⟩, ?_, ⟨.ticker 0, false⟩, ?_, rfl, .inl rfl⟩
  · constructor <;> simp [Timer.sys, Timer.init]
  · exact List.mem_cons_of_mem _ (List.mem_cons_self ..)
  · exact List.mem_cons_self ..

/-- **C122** is violated by an actor that makes a timer and resets it: `Reset` writes the interval while the goroutine of the
timer reads it. -/
theorem C122_reset_refuted : ∃ h s, Timer.sys.Run h s ∧ Sole 0 h ∧ RaceAt Timer.sys timerWho timerAcc s (.usr 0) (.g 0 false) := by
  refine ⟨_, _, Lts.run_of_exec (M := Timer.sys) (as := [.onTimer 0 100, .reset 0 0 7]) rfl, ?_,
    _, _, _, _, rfl, rfl, by decide, ⟨.interval 0, true⟩, ?_, ⟨.interval 0, false⟩, ?_, rfl, .inl rfl⟩
  · constructor <;> simp [Timer.sys, Timer.init] <;> intros <;> assumption
  · exact List.mem_cons_of_mem _ (List.mem_cons_self ..)
  · exact List.mem_cons_self ..

/-- **C122** is violated by two goroutines that reset a running timer. -/
theorem C122_two_refuted : ∃ h s, Timer.sys.Run h s ∧ RaceAt Timer.sys timerWho timerAcc s (.usr 0) (.usr 1) ∧
    (s.tm 0).ticker.isSome = true := by
  refine ⟨_, _, Lts.run_of_exec (M := Timer.sys) (as := [.onTimer 0 100, .g 0 false, .reset 0 0 7, .reset 1 0 8]) rfl,
    ⟨_, _, _, _, rfl, rfl, by decide, ⟨.interval 0, true⟩, ?_, ⟨.interval 0, true⟩, ?_, rfl, .inl rfl⟩, rfl⟩
  · exact List.mem_cons_of_mem _ (List.mem_cons_self ..)
  · exact List.mem_cons_of_mem _ (List.mem_cons_self ..)

/-- The hypotheses of `C122_sole_partial` hold: a timer is being cancelled after two ticks, and both its goroutine and the
caller are about to read the ticker. -/
example : ∃ h s, Timer.sys.Run h s ∧ Sole 1 h ∧ Late h ∧ timerAcc s (.usr 1) = [⟨.ticker 0, false⟩] ∧
    timerAcc s (.g 0 false) = [⟨.ticker 0, false⟩] := by
  have h1 := (ex_run 1000000).exec (as := [.g 0 false, .g 0 false, .g 0 false])
    (es := [.queued 0 1000000]) rfl
  have h2 := (pass_run h1 rfl 2000000).exec (as := [.fire 0, .g 0 false, .g 0 false, .stop 1 0, .usr 1,
    .usr 1]) (es := [.queued 0 3000000, .stopCall 1 0]) rfl
  refine ⟨_, _, h2, ⟨by simp, by simp⟩, ⟨?_, ?_⟩, rfl, rfl⟩
  · intro l1 l2 u t he
    rcases l1 with _ | ⟨e1, _ | ⟨e2, _ | ⟨e3, _ | ⟨e4, _ | ⟨e5, l1⟩⟩⟩⟩⟩ <;> simp at he
    obtain ⟨rfl, rfl, rfl, ⟨rfl, rfl⟩, -⟩ := he
    decide
  · intro l1 l2 u t d he
    have := congrArg (Ev.resetCall u t d ∈ ·) he
    simp at this

end Braid.Race
