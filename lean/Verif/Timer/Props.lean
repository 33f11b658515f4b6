import Verif.Timer.Sched

/-
Properties C17 (the schedule of OnTimer), C18 (cancelled timers) and C19 (Stop and Reset).
-/
namespace Braid.Timer
open Spec

/-- Milliseconds that fit in a `time.Duration`: about 292 years. -/
def maxMs : Int := 9223372036854

theorem dur_eq {x : Int} (h0 : 0 ≤ x) (h1 : x ≤ maxMs) : dur x = x * 1000000 := by
  unfold maxMs at h1
  unfold dur
  rw [Int.bmod_def]
  split <;> omega

/-! ### C17 -/

/-- C17, the full statement, on machines that are fast enough: at every idle moment the ticks of an
undisturbed timer were queued as documented, and nothing crashes. -/
def OnTimerAsDocumented : Prop :=
  ∀ h s t due interval t0, Prompt h s → .made t due interval t0 ∈ h → 0 ≤ due → due ≤ maxMs →
    0 ≤ interval → interval ≤ maxMs → Untouched t h → Idle s →
    s.crashed = false ∧ AsDocumented t0 (due * 1000000) (interval * 1000000) s.now (times t h)

/-- C17 is violated: an interval of 0 crashes the process (`time.NewTicker` panics). -/
theorem C17_zero_interval_refuted : ¬ OnTimerAsDocumented := by
  intro hall
  have hp : Prompt ([] ++ [.made 0 0 0 0] ++ [.crash]) _ :=
    (Prompt.init.step (a := .onTimer 0 0) rfl (by simp)).step (a := .g 0 false) rfl (by simp)
  have := (hall _ _ 0 0 0 0 hp (by simp) (by decide) (by decide) (by decide) (by decide)
    (by simp [Untouched]) ⟨fun a _ => by simp [step], by decide⟩).1
  exact absurd this (by decide)

/-- C17 is violated: with a due time of 0 there is no tick at once. -/
theorem C17_zero_due_refuted : ¬ OnTimerAsDocumented := by
  intro hall
  have hp : Prompt ([] ++ [.made 0 0 1 0] ++ []) _ :=
    (Prompt.init.step (a := .onTimer 0 1) rfl (by simp)).step (a := .g 0 false) rfl (by simp)
  have := (hall _ _ 0 0 1 0 hp (by simp) (by decide) (by decide) (by decide) (by decide)
    (by simp [Untouched]) ⟨?_, by decide⟩).2
  · simp [AsDocumented, Periodic] at this
    have h0 := this 0
    simp [times] at h0
    exact absurd h0 (by decide)
  · intro a ha
    cases a with
    | g t b =>
      by_cases ht : t = 0
      · subst ht; cases b <;> rfl
      · simp [step, stepG, init, setT, upd_of_ne, ht]
    | fire t =>
      by_cases ht : t = 0
      · subst ht; rfl
      · simp [step, init, setT, upd_of_ne, ht]
    | select => rfl
    | loop => rfl
    | _ => cases ha

theorem periodic_of_onTime {F I D : Int} {h : List Ev} {s : State} {t : Nat} (hI : 0 < I)
    (ho : OnTime F I D (times t h) s.now (s.tm t)) (hidle : Idle s) (hc : s.crashed = false) :
    Periodic F I s.now (times t h) := by
  obtain ⟨m, h1, h2, -, h4⟩ := ho
  have g1 := hidle.1 (.g t false) trivial
  have g2 := hidle.1 (.fire t) trivial
  have g3 := hidle.2
  have hlt : s.now < at_ F I m := by
    cases hg : (s.tm t).g <;> cases hk : (s.tm t).ticker <;> rw [hg, hk] at h4 <;>
      simp [step, stepG, hc, hg, hk, g3] at g1 g2 h4
    · rw [h4.2.1, at_zero]; omega
    · split at g1 <;> simp at g1
    · grind
  intro i
  rw [h1]
  by_cases hi : i < m
  · have hle : at_ F I i ≤ s.now := by
      rcases h2 with h2 | h2
      · omega
      · exact Int.le_trans (at_mono hI (by omega)) h2
    have hle' : F + i * I ≤ s.now := hle
    rw [if_pos hle']
    simp [hi, at_]
  · have hgt : ¬ at_ F I i ≤ s.now := by
      have := at_mono (first := F) hI (i := m) (j := i) (by omega)
      omega
    have hgt' : ¬ F + i * I ≤ s.now := hgt
    rw [if_neg hgt']
    simp; omega

/-- C17 (partial): with a positive due time and a positive interval the ticks are queued exactly as
documented, on machines that are fast enough. Missing from the full statement: due time 0 and
interval 0, where the code deviates from its documentation. -/
theorem C17_as_documented_partial {h : List Ev} {s : State} {t : Nat} {due interval t0 : Int}
    (hp : Prompt h s) (hm : .made t due interval t0 ∈ h) (hd : 0 < due) (hd' : due ≤ maxMs)
    (hi : 0 < interval) (hi' : interval ≤ maxMs) (hu : Untouched t h) (hidle : Idle s)
    (hc : s.crashed = false) :
    AsDocumented t0 (due * 1000000) (interval * 1000000) s.now (times t h) := by
  have e1 := dur_eq (by omega) hd'
  have e2 := dur_eq (by omega) hi'
  have ho := made_prompt hp hm hu (by omega)
  rw [AsDocumented, if_neg (by omega)]
  have := periodic_of_onTime (by omega) ho hidle hc
  rw [first, if_pos (by omega), e1, e2] at this
  exact this

/-- C17 (partial): with a due time of 0 the first tick comes after the interval, instead of at once;
the following ones are as documented. -/
theorem C17_zero_due_partial {h : List Ev} {s : State} {t : Nat} {interval t0 : Int}
    (hp : Prompt h s) (hm : .made t 0 interval t0 ∈ h) (hi : 0 < interval) (hi' : interval ≤ maxMs)
    (hu : Untouched t h) (hidle : Idle s) (hc : s.crashed = false) :
    Periodic (t0 + interval * 1000000) (interval * 1000000) s.now (times t h) := by
  have e1 : dur 0 = 0 := by decide
  have e2 := dur_eq (by omega) hi'
  have ho := made_prompt hp hm hu (by omega)
  have := periodic_of_onTime (by omega) ho hidle hc
  rw [first, if_neg (by omega), e2] at this
  exact this

/-- C17: on any machine, and whatever else goes on, no tick of an undisturbed timer is queued before it
is due: tick number `i` (from 0) not before the first due moment and `i` intervals. -/
theorem C17_never_early {h : List Ev} {s : State} {t : Nat} {due interval t0 : Int} (hr : sys.Run h s)
    (hm : .made t due interval t0 ∈ h) (hd : 0 ≤ due) (hd' : due ≤ maxMs) (hi : 0 < interval)
    (hi' : interval ≤ maxMs) (hu : Untouched t h) {i : Nat} {v : Int}
    (hv : (times t h)[i]? = some v) : t0 + due * 1000000 + i * (interval * 1000000) ≤ v := by
  have e1 := dur_eq hd hd'
  have e2 := dur_eq (by omega) hi'
  have := (made_run hr hm hu (by omega)).1 i v hv
  rw [e1, e2, at_, first] at this
  split at this <;> omega

/-- C17 (partial): if all intervals are positive and nobody calls `Stop`, `CancelTimer` or `Reset`,
nothing crashes. -/
theorem C17_no_crash_partial {h : List Ev} {s : State} (hr : sys.Run h s)
    (hi : ∀ t d i a, .made t d i a ∈ h → 0 < i ∧ i ≤ maxMs)
    (hs : ∀ u t, .stopCall u t ∉ h) (hre : ∀ u t d, .resetCall u t d ∉ h) :
    s.crashed = false ∧ .crash ∉ h := by
  have key := hr.invariant (P := fun h s => (∀ t d i a, .made t d i a ∈ h → 0 < i ∧ i ≤ maxMs) →
      (∀ u t, .stopCall u t ∉ h) → (∀ u t d, .resetCall u t d ∉ h) →
      s.crashed = false ∧ .crash ∉ h ∧ ∀ t, t < s.n → 0 < (s.tm t).interval) (by simp [sys, init]) (by
    intro h s a s' evs hr ih hs h1 h2 h3
    have k2 : ∀ u t, .stopCall u t ∉ h := fun u t hm => h2 u t (by simp [hm])
    have k3 : ∀ u t d, .resetCall u t d ∉ h := fun u t d hm => h3 u t d (by simp [hm])
    clear h2 h3
    obtain ⟨i1, i2, i3⟩ := ih (fun t d i a hm => h1 t d i a (by simp [hm])) k2 k3
    have ha := invA_run hr
    have hst : ∀ u t, s.usr u ≠ .stop t ∧ s.usr u ≠ .stop2 t ∧ s.usr u ≠ .stop3 t := fun u t =>
      ⟨fun hx => k2 u t (ha.stop u t (.inl hx)), fun hx => k2 u t (ha.stop u t (.inr (.inl hx))),
        fun hx => k2 u t (ha.stop u t (.inr (.inr hx)))⟩
    have hre : ∀ u t d, s.usr u ≠ .reset t d := fun u t d hx => k3 u t d (ha.reset u t d hx)
    have hre2 : ∀ u t, s.usr u ≠ .reset2 t := fun u t hx => (ha.reset2 u t hx).elim fun d hd => k3 u t d hd
    have hre3 : ∀ u t, s.usr u ≠ .reset3 t := fun u t hx => (ha.reset3 u t hx).elim fun d hd => k3 u t d hd
    have hof : ∀ t, s.n ≤ t → (s.tm t).g = .off := fun t ht => (ha.calls t ht).2.2.2.2.1
    clear ha hr ih
    have hd : ∀ x, 0 < x → x ≤ maxMs → 0 < dur x := fun x h0 h1 => by
      rw [dur_eq (by omega) h1]; omega
    simp only [sys] at hs
    cases a <;> t_cases hs <;> refine ⟨?_, ?_, ?_⟩ <;> grind [upd_apply])
  obtain ⟨h1, h2, -⟩ := key hi hs hre
  exact ⟨h1, h2⟩

/-- The state after `OnTimer(1, 2)` and `n` nanoseconds. -/
def exState (n : Int) : State :=
  { setT init 0 ⟨2000000, true, none, .due 1000000, 1000000⟩ with n := 1, now := n }

theorem ex_run (n : Nat) : sys.Run [.made 0 1 2 0] (exState n) := by
  induction n with
  | zero => exact Lts.run_of_exec (M := sys) (as := [.onTimer 1 2]) rfl
  | succ n ih =>
    have := ih.step (a := .pass) (s' := exState (n + 1)) (evs := []) rfl
    simpa using this

theorem ex_idle (n : Nat) (hn : n < 1000000) : Idle (exState n) := by
  refine ⟨?_, by simp [exState, setT, init]⟩
  intro a ha
  cases a with
  | g t b =>
    by_cases ht : t = 0
    · subst ht
      have : ¬ (1000000 : Int) ≤ n := by omega
      simp [step, stepG, exState, setT, init, this]
    · simp [step, stepG, exState, init, setT, upd_of_ne, ht]
  | fire t =>
    by_cases ht : t = 0
    · subst ht; rfl
    · simp [step, exState, init, setT, upd_of_ne, ht]
  | select => rfl
  | loop => rfl
  | _ => cases ha

theorem ex_prompt (n : Nat) (hn : n ≤ 1000000) : Prompt [.made 0 1 2 0] (exState n) := by
  induction n with
  | zero => exact Prompt.init.step (a := .onTimer 1 2) rfl (by simp)
  | succ n ih =>
    have := (ih (by omega)).step (a := .pass) (s' := exState (n + 1)) (evs := []) rfl
      (fun _ => ex_idle n (by omega))
    simpa using this

theorem ex_ticked : ∃ h s, Prompt h s ∧ .made 0 1 2 0 ∈ h ∧ Untouched 0 h ∧ Idle s ∧ s.crashed = false ∧
    times 0 h = [1000000] ∧ s.closed = false ∧ step s .ended = none ∧ starts h = [0] ∧
    (s.tm 0).trigger = 1000000 := by
  have := ((((((ex_prompt 1000000 (by decide)).step (a := .g 0 false) rfl (by simp)).step (a := .g 0 false)
    rfl (by simp)).step (a := .g 0 false) rfl (by simp)).step (a := .select) rfl (by simp)).step
      (a := .loop) rfl (by simp)).step (a := .ended) rfl (by simp)
  refine ⟨_, _, this, by simp, by simp [Untouched], ⟨?_, by decide⟩, rfl, rfl, rfl, rfl, rfl, rfl⟩
  intro a ha
  cases a with
  | g t b =>
    by_cases ht : t = 0
    · subst ht; cases b <;> rfl
    · simp [step, stepG, exState, init, setT, upd_of_ne, ht]
  | fire t =>
    by_cases ht : t = 0
    · subst ht; rfl
    · simp [step, exState, init, setT, upd_of_ne, ht]
  | select => rfl
  | loop => rfl
  | _ => cases ha

/-- A run for the theorems above: a timer with due time 1 ms and interval 2 ms has ticked once, its
callback has run, and nothing is left to do before time goes on. -/
example : ∃ h s, Prompt h s ∧ .made 0 1 2 0 ∈ h ∧ Untouched 0 h ∧ Idle s ∧ s.crashed = false ∧
    times 0 h = [1000000] := by
  obtain ⟨h, s, h1, h2, h3, h4, h5, h6, -⟩ := ex_ticked
  exact ⟨h, s, h1, h2, h3, h4, h5, h6⟩

/-! ### C18 -/

/-- C18, first part of the full statement: when `CancelTimer` has returned the callback does not start
again (unless somebody resets the timer). -/
def CancelSilent : Prop :=
  ∀ h1 h2 s u t b, sys.Run (h1 ++ .stopRet u t b :: h2) s → (∀ v d, .resetCall v t d ∉ h1 ++ h2) →
    .cbStart t ∉ h2

/-- C18, second part of the full statement: `CancelTimer` does not crash. -/
def CancelSafe : Prop :=
  ∀ h s, sys.Run h s → (∀ t d i a, .made t d i a ∈ h → 0 < i ∧ i ≤ maxMs) →
    (∀ u t d, .resetCall u t d ∉ h) → .crash ∉ h

/-- C18 is violated: a tick that is queued when the timer is cancelled is still executed. -/
theorem C18_queued_tick_refuted : ¬ CancelSilent := by
  intro hall
  have hrun : ∃ s, sys.Run ([.made 0 1 2 0, .queued 0 1000000, .stopCall 1 0] ++
      .stopRet 1 0 true :: [.cbStart 0]) s := by
    have := (ex_run 1000000).exec (as := [.g 0 false, .g 0 false, .g 0 false, .stop 1 0, .usr 1, .usr 1,
      .usr 1, .select, .loop]) (es := [.queued 0 1000000, .stopCall 1 0, .stopRet 1 0 true, .cbStart 0])
      rfl
    exact ⟨_, this⟩
  obtain ⟨s, hs⟩ := hrun
  exact hall _ _ _ _ _ _ hs (by simp) (by simp)

/-- C18 is violated: cancelling a timer during its due time crashes (the ticker is still nil). -/
theorem C18_nil_ticker_refuted : ¬ CancelSafe := by
  intro hall
  have hrun : ∃ s, sys.Run [.made 0 1 2 0, .stopCall 1 0, .crash] s := by
    have := (ex_run 5).exec (as := [.stop 1 0, .usr 1, .usr 1, .usr 1]) (es := [.stopCall 1 0, .crash]) rfl
    exact ⟨_, this⟩
  obtain ⟨s, hs⟩ := hrun
  exact hall _ _ hs (by simp [maxMs]; omega) (by simp) (by simp)

/-- The ticker of a timer that was stopped and not reset is not running. -/
theorem stopped_run {h : List Ev} {s : State} (hr : sys.Run h s) {t : Nat}
    (hre : ∀ u d, .resetCall u t d ∉ h) {u : Nat} (hst : .stopRet u t true ∈ h) :
    ∃ k, (s.tm t).ticker = some k ∧ k.running = false := by
  have key := hr.invariant (P := fun h s => (∀ u d, .resetCall u t d ∉ h) →
      (∃ u, .stopRet u t true ∈ h) → ∃ k, (s.tm t).ticker = some k ∧ k.running = false) (by simp) (by
    intro h s a s' evs hr ih hs h1 h2
    have k1 : ∀ u d, .resetCall u t d ∉ h := fun u d hm => h1 u d (by simp [hm])
    have ha := invA_run hr
    have n1 : ∀ u d, s.usr u ≠ .reset t d := fun u d hx => k1 u d (ha.reset u t d hx)
    have n2 : ∀ u, s.usr u ≠ .reset2 t := fun u hx => (ha.reset2 u t hx).elim fun d hd => k1 u d hd
    have n3 : ∀ u, s.usr u ≠ .reset3 t := fun u hx => (ha.reset3 u t hx).elim fun d hd => k1 u d hd
    have htk := ha.ticker t
    have hn : s.n ≤ t → ∀ u b, .stopRet u t b ∉ h := fun ht => (ha.calls t ht).2.2.2.1
    simp only [sys] at hs
    obtain ⟨v, hv⟩ := h2
    rcases List.mem_append.1 hv with hv | hv
    · obtain ⟨k, hk1, hk2⟩ := ih k1 ⟨v, hv⟩
      clear ha ih hr h1 k1
      cases a <;> t_cases hs <;> grind [upd_apply]
    · clear ha ih hr h1 k1
      cases a <;> t_cases hs <;> grind [upd_apply])
  exact key hre ⟨u, hst⟩

/-- C18 (partial): when `Stop` or `CancelTimer` has stopped the timer (and nobody resets it), its callback
starts at most as often as ticks of it are on their way at that moment: queued, in the channel of the
ticker, or in the hands of a goroutine. So it is silent once these are used up. Missing from the full
statement: those ticks, and the crash when the ticker has not been made. -/
theorem C18_bounded_partial {h : List Ev} {s s' : State} {as : List Act} {evs : List Ev} {u t : Nat}
    (hr : sys.Run h s) (hst : .stopRet u t true ∈ h) (he : sys.exec s as = some (s', evs))
    (hre : ∀ v d, .resetCall v t d ∉ h ++ evs) : evs.count (.cbStart t) ≤ pending t s := by
  induction as generalizing h s evs with
  | nil => simp [Lts.exec] at he; simp [he.2]
  | cons a as ih =>
    simp only [Lts.exec] at he
    split at he
    · cases he
    · rename_i s1 e1 hs
      split at he
      · cases he
      · rename_i s2 e2 hs2
        cases he
        have hn1 : ∀ v d, .resetCall v t d ∉ h := fun v d hm => hre v d (by simp [hm])
        obtain ⟨k, hk1, hk2⟩ := stopped_run hr hn1 hst
        have h1 := ih (hr.step hs) (by simp [hst]) hs2 (by simpa [List.append_assoc] using hre)
        have ha := invA_run hr
        have hg := (ha.ticker t).1 (by simp [hk1])
        have n3 : ∀ u, s.usr u ≠ .reset3 t := fun u hx => (ha.reset3 u t hx).elim fun d hd => hn1 u d hd
        have hnn : s.n ≤ t → False := fun ht => (ha.calls t ht).2.2.2.1 u true hst
        rw [List.count_append]
        suffices hp : e1.count (.cbStart t) + pending t s1 ≤ pending t s by omega
        clear h1 ih hre hr ha hs2 hn1 hst
        simp only [sys] at hs
        simp only [pending]
        cases a <;> t_cases hs <;>
          grind [upd_apply]

/-- C18 (partial): with positive intervals, `Stop`, `CancelTimer` and `Reset` do not crash if they are
called after two ticks of the timer were queued. Missing from the full statement: earlier calls, when the ticker may not have been made. -/
theorem C18_no_crash_partial {h : List Ev} {s : State} (hr : sys.Run h s)
    (hi : ∀ t d i a, .made t d i a ∈ h → 0 < i ∧ i ≤ maxMs) (hl : Late h) :
    s.crashed = false ∧ .crash ∉ h := by
  have key := hr.invariant (P := fun h s => (∀ t d i a, .made t d i a ∈ h → 0 < i ∧ i ≤ maxMs) → Late h →
      Safe h s) (by intros; constructor <;> simp [sys, init, times]) (by
    intro h s a s' evs hr ih hs h1 h2
    refine safe_step (invA_run hr) (ih (fun t d i a hm => h1 t d i a (by simp [hm])) (late_left h2)) ?_ h2 hs
    intro t d i a hm
    have := h1 t d i a (by simp [hm])
    rw [dur_eq (by omega) this.2]; omega)
  exact ⟨(key hi hl).ok, (key hi hl).nocrash⟩

theorem pass_run {h : List Ev} {s : State} (hr : sys.Run h s) (hc : s.crashed = false) (n : Nat) :
    sys.Run h { s with now := s.now + n } := by
  induction n with
  | zero => simpa using hr
  | succ n ih =>
    have := ih.step (a := .pass) (s' := { s with now := s.now + n + 1 }) (evs := [])
      (by simp [sys, step, hc])
    simpa [Int.add_assoc] using this

/-- The hypotheses of `C18_no_crash_partial` hold: a timer is cancelled after two ticks. -/
example : ∃ h s, sys.Run h s ∧ (∀ t d i a, .made t d i a ∈ h → 0 < i ∧ i ≤ maxMs) ∧ Late h ∧
    .stopRet 1 0 true ∈ h := by
  have h1 := (ex_run 1000000).exec (as := [.g 0 false, .g 0 false, .g 0 false])
    (es := [.queued 0 1000000]) rfl
  have h2 := (pass_run h1 rfl 2000000).exec (as := [.fire 0, .g 0 false, .g 0 false, .stop 1 0, .usr 1,
    .usr 1, .usr 1]) (es := [.queued 0 3000000, .stopCall 1 0, .stopRet 1 0 true]) rfl
  refine ⟨_, _, h2, by simp [maxMs]; omega, ⟨?_, ?_⟩, by simp⟩
  · intro l1 l2 u t he
    rcases l1 with _ | ⟨e1, _ | ⟨e2, _ | ⟨e3, _ | ⟨e4, _ | ⟨e5, _ | ⟨e6, l1⟩⟩⟩⟩⟩⟩ <;> simp at he
    obtain ⟨rfl, rfl, rfl, ⟨rfl, rfl⟩, -⟩ := he
    decide
  · intro l1 l2 u t d he
    have := congrArg (Ev.resetCall u t d ∈ ·) he
    simp at this

/-- The hypotheses of `C18_bounded_partial` hold: a stopped timer with one queued tick. -/
example : ∃ h s, sys.Run h s ∧ .stopRet 1 0 true ∈ h ∧ (∀ v d, .resetCall v 0 d ∉ h) ∧ pending 0 s = 1 := by
  have := (ex_run 1000000).exec (as := [.g 0 false, .g 0 false, .g 0 false, .stop 1 0, .usr 1, .usr 1,
    .usr 1]) (es := [.queued 0 1000000, .stopCall 1 0, .stopRet 1 0 true]) rfl
  exact ⟨_, _, this, by simp, by simp, rfl⟩

/-! ### C19 -/

/-- The functions of the sequential model are what the operations of the model above do when nothing
comes in between. -/
theorem stop_atomic {s : State} {u t : Nat} {x : T} (hc : s.crashed = false) (hu : s.usr u = .stop t)
    (hx : stopT (s.tm t) = some (x, true)) :
    ∃ s', sys.exec s [.usr u, .usr u, .usr u] = some (s', [.stopRet u t true]) ∧ s'.tm t = x := by
  simp only [stopT] at hx
  split at hx
  · rename_i ha
    split at hx
    · rename_i k hk
      cases hx
      exact ⟨_, by simp [Lts.exec, sys, step, stepU, hc, hu, ha, setU, setT, hk]; rfl, by simp⟩
    · cases hx
  · cases hx

/-- C19: `Stop` returns true iff the timer was active, and leaves it inactive. -/
theorem C19_stop {x x' : T} {b : Bool} (hs : stopT x = some (x', b)) :
    (b = true ↔ x.active = true) ∧ x'.active = false ∧ x'.interval = x.interval := by
  simp only [stopT] at hs
  split at hs
  · split at hs <;> cases hs
    simp [*]
  · cases hs
    simp_all

/-- C19: once the goroutine has made the ticker, `Stop` and `Reset` do not crash. -/
theorem C19_no_crash {x : T} (hx : Reach x) (now d : Int) :
    (stopT x).isSome ∧ (resetT now x d).isSome := by
  have hk : x.ticker.isSome := by
    induction hx with
    | start => rfl
    | stop _ hs ih =>
      simp only [stopT] at hs
      repeat' split at hs
      all_goals (try cases hs)
      all_goals simp_all
    | reset _ hs ih =>
      simp only [resetT] at hs
      repeat' split at hs
      all_goals (try cases hs)
      all_goals simp_all
  obtain ⟨k, hk⟩ := Option.isSome_iff_exists.1 hk
  simp only [stopT, resetT, hk]
  constructor
  · split <;> rfl
  · repeat' split
    all_goals rfl

/-- C19, the full statement for `Reset`. -/
def ResetActivates : Prop :=
  ∀ x x' now d, Reach x → resetT now x d = some (x', true) →
    x'.active = true ∧ x'.interval = if 0 < d then d else x.interval

/-- C19 is violated: `Reset` with the interval the timer already has returns true and does nothing,
also when the timer is stopped. -/
theorem C19_reset_refuted : ¬ ResetActivates := by
  intro hall
  have h1 : Reach ⟨5, true, some ⟨true, 5, 5, false⟩, .sel, 5⟩ := Reach.start (i := 5) (now := 0) (by decide)
  have h2 : Reach ⟨5, false, some ⟨false, 5, 5, false⟩, .sel, 5⟩ := h1.stop (b := true) rfl
  have := (hall _ _ 7 5 h2 rfl).1
  exact absurd this (by decide)

/-- C19 (partial): when `Reset` returns true the timer has the requested interval (or the old one if 0
was given), and it is active unless it was inactive and had this interval already. Missing from the full
statement: that case. -/
theorem C19_reset_partial {x x' : T} {now d : Int} (hs : resetT now x d = some (x', true)) :
    (x'.interval = if 0 < d then d else x.interval) ∧
    (x.active = true ∨ ¬ (0 < d ∧ x.interval = d) → x'.active = true) := by
  simp only [resetT] at hs
  repeat' split at hs
  all_goals (try cases hs)
  all_goals simp_all
  all_goals (try omega)

/-- C19: after any calls the timer is active iff its ticker runs, with the interval the timer shows. -/
theorem C19_ticker_agrees {x : T} (hx : Reach x) :
    ∃ k, x.ticker = some k ∧ k.running = x.active ∧ (x.active = true → k.period = x.interval) ∧
      0 < x.interval := by
  induction hx with
  | start h => exact ⟨_, rfl, rfl, fun _ => rfl, h⟩
  | @stop x x' b _ hs ih =>
    obtain ⟨k, h1, h2, h3, h4⟩ := ih
    simp only [stopT, h1] at hs
    split at hs <;> cases hs
    · exact ⟨_, rfl, rfl, by simp, h4⟩
    · exact ⟨k, h1, h2, h3, h4⟩
  | @reset x x' b now d _ hs ih =>
    obtain ⟨k, h1, h2, h3, h4⟩ := ih
    simp only [resetT, h1] at hs
    split at hs
    · cases hs; exact ⟨k, h1, h2, h3, h4⟩
    · split at hs
      · split at hs
        · rename_i h5; omega
        · cases hs; rename_i h5 h6; exact ⟨_, rfl, rfl, by simp, by simp; omega⟩
      · split at hs
        · omega
        · cases hs; exact ⟨_, rfl, rfl, by simp, h4⟩

example : Reach ⟨9, true, some ⟨true, 9, 12, false⟩, .sel, 12⟩ ∧
    resetT 3 ⟨5, false, some ⟨false, 5, 5, false⟩, .sel, 5⟩ 9 =
      some (⟨9, true, some ⟨true, 9, 12, false⟩, .sel, 12⟩, true) :=
  ⟨((Reach.start (i := 5) (now := 0) (z := 5) (by decide)).stop (b := true) rfl).reset (now := 3) (d := 9) rfl, rfl⟩

/-- `Reset` of the sequential model is what the operation of the model does when nothing comes in
between. -/
theorem reset_atomic {s : State} {u t : Nat} {d : Int} {x : T} (hc : s.crashed = false)
    (hu : s.usr u = .reset t d) (hx : resetT s.now (s.tm t) d = some (x, true)) :
    ∃ n s', sys.exec s (List.replicate n (.usr u)) = some (s', [.resetRet u t true]) ∧ s'.tm t = x := by
  by_cases ha : 0 < d ∧ (s.tm t).interval = d
  · simp only [resetT, gt_iff_lt, if_pos ha] at hx
    cases hx
    exact ⟨1, _, by simp [Lts.exec, sys, step, stepU, hc, hu, ha.1, ha.2, List.replicate]; rfl, by simp [setU]⟩
  · simp only [resetT, gt_iff_lt, if_neg ha] at hx
    refine ⟨3, ?_⟩
    cases hk : (s.tm t).ticker with
    | none => rw [hk] at hx; split at hx <;> simp at hx
    | some k =>
      rw [hk] at hx
      by_cases hd : 0 < d
      · have hne : ¬ (s.tm t).interval = d := fun h => ha ⟨hd, h⟩
        have hd' : ¬ d ≤ 0 := by omega
        simp only [if_pos hd, if_neg hd', Option.some.injEq, Prod.mk.injEq, and_true] at hx
        exact ⟨_, by simp [Lts.exec, sys, step, stepU, hc, hu, hd, hne, setU, setT, hk, List.replicate]; rfl,
          by simp [← hx]⟩
      · simp only [if_neg hd] at hx
        split at hx
        · simp at hx
        · rename_i h2
          simp only [Option.some.injEq, Prod.mk.injEq, and_true] at hx
          exact ⟨_, by simp [Lts.exec, sys, step, stepU, hc, hu, hd, h2, setU, setT, hk, List.replicate]; rfl,
            by simp [← hx]⟩

/-! ### C88 -/

/-- C88: callbacks start in the order in which ticks were queued, at most once for each. -/
theorem C88_in_order {h : List Ev} {s : State} (hr : sys.Run h s) :
    List.Sublist (starts h) (queuedIds h) := by
  have h1 := (fed_run hr).1
  rw [List.append_assoc] at h1
  exact (List.sublist_append_left _ _).trans h1

/-- C88: until the actor closes, no tick is skipped. -/
theorem C88_none_skipped {h : List Ev} {s : State} (hr : sys.Run h s) (hc : s.closed = false) :
    starts h <+: queuedIds h :=
  ⟨_, by simpa [List.append_assoc] using (fed_run hr).2 hc⟩

/-- C88: when nothing is left to do and no callback runs, every queued tick had its callback. -/
theorem C88_all {h : List Ev} {s : State} (hr : sys.Run h s) (hc : s.closed = false)
    (hcr : s.crashed = false) (hi : Idle s) (he : step s .ended = none) : starts h = queuedIds h := by
  have h1 := (fed_run hr).2 hc
  have h2 := hi.1 .select trivial
  have h3 := hi.1 .loop trivial
  cases hl : s.loop with
  | tick t => simp [step, hcr, hl, hc] at h3
  | run t => simp [step, hcr, hl] at he
  | busy => simp [step, hcr, hl] at he
  | sel =>
    cases hch : s.chan with
    | cons t r => simp [step, hcr, hl, hch] at h2
    | nil => simpa [hl, hch, LPc.held] using h1

/-- C88: once the actor closes no callback starts. -/
theorem C88_closed {s s' : State} {as : List Act} {evs : List Ev} (hc : s.closed = true)
    (he : sys.exec s as = some (s', evs)) : starts evs = [] := by
  induction as generalizing s evs with
  | nil => simp [Lts.exec] at he; simp [he.2, starts]
  | cons a as ih =>
    simp only [Lts.exec] at he
    split at he
    · cases he
    · rename_i s1 e1 hs
      split at he
      · cases he
      · rename_i s2 e2 hs2
        cases he
        have h1 : s1.closed = true ∧ starts e1 = [] := by
          simp only [sys] at hs
          clear ih hs2
          cases a <;> t_cases hs <;> simp_all [starts]
        rw [starts_append, h1.2, ih h1.1 hs2]; rfl

/-- The hypotheses of `C88_all` hold in a run with a tick. -/
example : ∃ h s, sys.Run h s ∧ s.closed = false ∧ s.crashed = false ∧ Idle s ∧ step s .ended = none ∧
    starts h = [0] := by
  obtain ⟨h, s, h1, -, -, h4, h5, -, h7, h8, h9, -⟩ := ex_ticked
  exact ⟨h, s, Prompt.run h1, h7, h5, h4, h8, h9⟩

/-! ### C89 -/

/-- C89, the full statement: at every idle moment `NextTrigger` returns the time of the next tick, on
machines that are fast enough. -/
def NextTriggerRight : Prop :=
  ∀ h s t due interval t0, Prompt h s → .made t due interval t0 ∈ h → 0 ≤ due → due ≤ maxMs →
    0 < interval → interval ≤ maxMs → Untouched t h → Idle s → s.crashed = false →
    (s.tm t).trigger = (t0 + if 0 < due then due * 1000000 else interval * 1000000) +
      (times t h).length * (interval * 1000000)

/-- C89 is violated: after the first tick `NextTrigger` still returns its time, which is in the past. -/
theorem C89_stale_refuted : ¬ NextTriggerRight := by
  intro hall
  obtain ⟨h, s, h1, h2, h3, h4, h5, h6, -, -, -, h7⟩ := ex_ticked
  have := hall h s 0 1 2 0 h1 h2 (by decide) (by decide) (by decide) (by decide) h3 h4 h5
  rw [h7, h6] at this
  exact absurd this (by decide)

/-- C89 (partial): `NextTrigger` of an undisturbed timer returns the time of the first tick, before and
after it. Missing from the full statement: the later ticks, since nothing stores their times. -/
theorem C89_first_partial {h : List Ev} {s : State} {t : Nat} {due interval t0 : Int}
    (hp : Prompt h s) (hm : .made t due interval t0 ∈ h) (hd : 0 ≤ due) (hd' : due ≤ maxMs)
    (hi : 0 < interval) (hi' : interval ≤ maxMs) (hu : Untouched t h) (hidle : Idle s)
    (hc : s.crashed = false) :
    (s.tm t).trigger = (t0 + if 0 < due then due * 1000000 else interval * 1000000) ∧
    (times t h = [] → s.now < (s.tm t).trigger) ∧
    (∀ v l, times t h = v :: l → (s.tm t).trigger = v) := by
  have e1 := dur_eq hd hd'
  have e2 := dur_eq (by omega) hi'
  have ht := trigger_run (Prompt.run hp) hm hu.2.1
  have ho := periodic_of_onTime (by omega) (made_prompt hp hm hu (by omega)) hidle hc 0
  rw [e1, e2] at ht ho
  have h1 : (s.tm t).trigger = (t0 + if 0 < due then due * 1000000 else interval * 1000000) := by
    rw [ht]; split <;> split <;> omega
  have h2 : first t0 (due * 1000000) (interval * 1000000) = (s.tm t).trigger := by
    rw [h1, first]; split <;> split <;> omega
  rw [h2] at ho
  simp only [Int.natCast_zero, Int.zero_mul, Int.add_zero] at ho
  refine ⟨h1, ?_, ?_⟩
  · intro hl
    rw [hl] at ho
    split at ho
    · simp at ho
    · omega
  · intro v l hl
    rw [hl] at ho
    split at ho <;> simp at ho
    exact ho.symm

/-- C89: a `Reset` that sets the timer makes `NextTrigger` return when the ticker ticks next. -/
theorem C89_reset {x x' : T} {now d : Int} (hs : resetT now x d = some (x', true))
    (hn : ¬ (0 < d ∧ x.interval = d)) :
    ∃ k, x'.ticker = some k ∧ k.running = true ∧ k.next = x'.trigger ∧ x'.trigger = now + x'.interval := by
  simp only [resetT] at hs
  repeat' split at hs
  all_goals (try cases hs)
  · contradiction
  all_goals exact ⟨_, rfl, rfl, rfl, rfl⟩

end Braid.Timer
