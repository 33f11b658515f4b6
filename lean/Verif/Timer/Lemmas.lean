import Verif.Timer.Spec

/-
Invariants of the timer model.
-/
namespace Braid.Timer
open Spec

macro "t_cases " h:ident : tactic => `(tactic| (
  simp only [step, stepG, stepU, setT, setU] at $h:ident
  repeat' split at $h:ident
  all_goals (try cases $h:ident)))

theorem Prompt.run {h : List Ev} {s : State} (hp : Prompt h s) : sys.Run h s := by
  induction hp with
  | init => exact .init
  | step _ hs _ ih => exact ih.step hs

/-- When tick number `m` of a timer is due. -/
def at_ (first I : Int) (m : Nat) : Int := first + m * I

theorem at_zero (first I : Int) : at_ first I 0 = first := by simp [at_]
theorem at_succ (first I : Int) (m : Nat) : at_ first I (m + 1) = at_ first I m + I := by
  simp [at_, Int.add_mul]; omega
theorem at_mono {first I : Int} (hI : 0 < I) {i j : Nat} (h : i ≤ j) : at_ first I i ≤ at_ first I j := by
  induction j with
  | zero => simp_all
  | succ j ih =>
    by_cases hij : i = j + 1
    · subst hij; exact Int.le_refl _
    · rw [at_succ]; have := ih (by omega); omega

theorem times_append (t : Nat) (h1 h2 : List Ev) : times t (h1 ++ h2) = times t h1 ++ times t h2 :=
  List.filterMap_append ..

theorem times_queued (t t' : Nat) (a : Int) : times t [.queued t' a] = if t' = t then [a] else [] := by
  simp only [times, List.filterMap_cons, List.filterMap_nil]; split <;> simp_all

/-- Who is inside `Stop` or `Reset` of a timer has called it, timers are made once. -/
structure InvA (h : List Ev) (s : State) : Prop where
  stop : ∀ u t, s.usr u = .stop t ∨ s.usr u = .stop2 t ∨ s.usr u = .stop3 t → .stopCall u t ∈ h
  reset : ∀ u t d, s.usr u = .reset t d → .resetCall u t d ∈ h
  reset2 : ∀ u t, s.usr u = .reset2 t → ∃ d, .resetCall u t d ∈ h
  reset3 : ∀ u t, s.usr u = .reset3 t → ∃ d, .resetCall u t d ∈ h
  made : ∀ t d i a, .made t d i a ∈ h → t < s.n
  calls : ∀ t, s.n ≤ t → (∀ u, .stopCall u t ∉ h) ∧ (∀ u d, .resetCall u t d ∉ h) ∧
    (∀ a, .queued t a ∉ h) ∧ (∀ u b, .stopRet u t b ∉ h) ∧ (s.tm t).g = .off ∧ (s.tm t).ticker = none
  shut : s.shutdown = true → .shutdown ∈ h
  ticker : ∀ t, (s.tm t).ticker ≠ none ↔ (s.tm t).g = .sel ∨ (s.tm t).g = .send ∨ (s.tm t).g = .ended
  ended : ∀ t, (s.tm t).g = .ended → s.shutdown = true

set_option maxHeartbeats 4000000 in
theorem invA_step {h : List Ev} {s s' : State} {a : Act} {evs : List Ev} (hi : InvA h s)
    (hs : step s a = some (s', evs)) : InvA (h ++ evs) s' := by
  obtain ⟨i1, i2, i3, i4, i5, i6, i7, i8, i9⟩ := hi
  cases a <;> t_cases hs <;> constructor <;> grind [upd_apply]

theorem invA_run {h : List Ev} {s : State} (hr : sys.Run h s) : InvA h s :=
  hr.invariant (P := InvA) (by constructor <;> simp [sys, init]) fun _ _ _ _ _ _ hi hs => invA_step hi hs

/-- The tick the loop has received and not looked at. -/
def LPc.held : LPc → List Nat
  | .tick t => [t]
  | _ => []

/-- What the loop makes of the queued ticks. -/
def Fed (h : List Ev) (s : State) : Prop :=
  List.Sublist (starts h ++ s.loop.held ++ s.chan) (queuedIds h) ∧
  (s.closed = false → starts h ++ s.loop.held ++ s.chan = queuedIds h)

theorem starts_append (h e : List Ev) : starts (h ++ e) = starts h ++ starts e := List.filterMap_append ..
theorem queuedIds_append (h e : List Ev) : queuedIds (h ++ e) = queuedIds h ++ queuedIds e :=
  List.filterMap_append ..

theorem fed_step {h : List Ev} {s s' : State} {a : Act} {evs : List Ev} (hi : Fed h s)
    (hs : step s a = some (s', evs)) : Fed (h ++ evs) s' := by
  obtain ⟨h1, h2⟩ := hi
  simp only [Fed, starts_append, queuedIds_append]
  cases a <;> t_cases hs <;> (try simp_all [starts, queuedIds, LPc.held])
  all_goals first
    | (constructor
       · simpa [List.append_assoc] using h1.append_right [_]
       · intro hc; simp [← h2 hc, List.append_assoc])
    | exact ((List.Sublist.refl _).append (List.sublist_cons_self _ _)).trans h1

theorem fed_run {h : List Ev} {s : State} (hr : sys.Run h s) : Fed h s :=
  hr.invariant (P := Fed) (by simp [Fed, sys, init, starts, queuedIds, LPc.held])
    fun _ _ _ _ _ _ hi hs => fed_step hi hs

/-- The next trigger that a timer shows stays the first one until somebody calls `Reset`. -/
theorem trigger_run {h : List Ev} {s : State} (hr : sys.Run h s) {t : Nat} {due interval t0 : Int}
    (hm : .made t due interval t0 ∈ h) (hre : ∀ u d, .resetCall u t d ∉ h) :
    (s.tm t).trigger = if dur due ≠ 0 then t0 + dur due else t0 + dur interval := by
  have key := hr.invariant (P := fun h s => .made t due interval t0 ∈ h → (∀ u d, .resetCall u t d ∉ h) →
      (s.tm t).trigger = if dur due ≠ 0 then t0 + dur due else t0 + dur interval) (by simp) (by
    intro h s a s' evs hr ih hs h1 h2
    have k1 : ∀ u d, .resetCall u t d ∉ h := fun u d hm => h2 u d (by simp [hm])
    have ha := invA_run hr
    have n2 : ∀ u, s.usr u ≠ .reset2 t := fun u hx => (ha.reset2 u t hx).elim fun d hd => k1 u d hd
    have hmd := ha.made t due interval t0
    simp only [sys] at hs
    rcases List.mem_append.1 h1 with hv | hv
    · have i1 := ih hv k1
      have i2 := hmd hv
      clear ha ih hr h1 k1 h2 hmd hv
      cases a <;> t_cases hs <;> grind [upd_apply]
    · clear ha ih hr h1 k1 h2 hmd
      cases a <;> t_cases hs <;> grind [upd_apply])
  exact key hm hre

/-- Nothing has crashed, and who stops or resets a timer finds a ticker. -/
structure Safe (h : List Ev) (s : State) : Prop where
  ok : s.crashed = false
  nocrash : .crash ∉ h
  pos : ∀ t, t < s.n → 0 < (s.tm t).interval
  none0 : ∀ t, (s.tm t).ticker = none → (times t h).length ≤ 1
  none1 : ∀ t, (∃ a, (s.tm t).g = .due a) ∨ (s.tm t).g = .first → (times t h).length = 0
  usr : ∀ u t, s.usr u = .stop3 t ∨ s.usr u = .reset3 t ∨ s.usr u = .stop t ∨ s.usr u = .stop2 t ∨
    s.usr u = .reset2 t ∨ (∃ d, s.usr u = .reset t d) → (s.tm t).ticker ≠ none

theorem late_left {h evs : List Ev} (hl : Late (h ++ evs)) : Late h := by
  obtain ⟨h1, h2⟩ := hl
  exact ⟨fun a b u t he => h1 a (b ++ evs) u t (by simp [he]),
    fun a b u t d he => h2 a (b ++ evs) u t d (by simp [he])⟩

set_option maxHeartbeats 4000000 in
theorem safe_step {h : List Ev} {s s' : State} {a : Act} {evs : List Ev} (ha : InvA h s) (hi : Safe h s)
    (hm : ∀ t d i a, .made t d i a ∈ evs → 0 < dur i) (hl : Late (h ++ evs))
    (hs : step s a = some (s', evs)) : Safe (h ++ evs) s' := by
  obtain ⟨i1, i2, i3, i4, i5, i6⟩ := hi
  have l1 : ∀ u t, evs = [.stopCall u t] → 2 ≤ (times t h).length := fun u t he => hl.1 h [] u t (by rw [he])
  have l2 : ∀ u t d, evs = [.resetCall u t d] → 2 ≤ (times t h).length :=
    fun u t d he => hl.2 h [] u t d (by rw [he])
  have hof : ∀ t, s.n ≤ t → (s.tm t).g = .off ∧ (s.tm t).ticker = none ∧ times t h = [] := fun t ht => by
    have := ha.calls t ht
    refine ⟨this.2.2.2.2.1, this.2.2.2.2.2, ?_⟩
    simp only [times, List.filterMap_eq_nil_iff]
    intro e he
    cases e <;> simp
    rintro rfl
    exact this.2.2.1 _ he
  have htk := ha.ticker
  clear hl ha
  have ta := times_append
  have tq := times_queued
  have t0 : ∀ t, times t [] = [] := fun _ => rfl
  have t1 : ∀ t u t', times t [.stopCall u t'] = [] := fun _ _ _ => rfl
  have t2 : ∀ t u t' d, times t [.resetCall u t' d] = [] := fun _ _ _ _ => rfl
  have t3 : ∀ t u t' d, times t [.stopRet u t' d] = [] := fun _ _ _ _ => rfl
  have t4 : ∀ t u t' d, times t [.resetRet u t' d] = [] := fun _ _ _ _ => rfl
  have t5 : ∀ t u t' d e, times t [.made u t' d e] = [] := fun _ _ _ _ _ => rfl
  have t6 : ∀ t u, times t [.cbStart u] = [] := fun _ _ => rfl
  have t7 : ∀ t u, times t [.cbEnd u] = [] := fun _ _ => rfl
  have t8 : ∀ t, times t [.shutdown] = [] := fun _ => rfl
  cases a <;> t_cases hs <;> constructor <;> grind [upd_apply]

end Braid.Timer
