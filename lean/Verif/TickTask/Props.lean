import Verif.TickTask.Stop
import Verif.TickTask.Starts

/-
Properties C61 and C62: tick tasks. Every theorem quantifies over all executions of the model (all
interleavings of any number of callers, delays, ticks and handler outcomes).
-/
namespace Braid.TickTask

/-! ## C61: one handler call at a time -/

/-- **C61**, what holds in every execution: a start of a running task is without effect, so there are at most one more
effective starts than effective stops; and the number of handler calls running at once is at most the number of effective
starts plus the number of panics. -/
theorem C61_bound (c : Cfg) {h : List Ev} {s : State} (hr : (sys c).Run h s) :
    begins h ≤ ends h + (starts h + panics h) ∧ starts h ≤ 1 + stops h := by
  have i := inv_run hr
  have h1 := i.run; have h2 := i.tot
  have := cnt_le s.loop s.nloop isRunPc
  exact ⟨by omega, (sinv_run hr).all⟩

/-- **C61**, the part that holds: a task that no stop has had an effect on and that has not panicked runs its handler one
at a time, however often and by however many callers it was started. What is missing: tasks that are restarted, by a
caller after a stop or after a panic. -/
theorem C61_one_at_a_time_partial (c : Cfg) {h : List Ev} {s : State} (hr : (sys c).Run h s)
    (h1 : stops h + panics h = 0) : OneAtATime h := by
  have := C61_bound c hr
  unfold OneAtATime; omega

/-- **C61**, calls that run at once are at most one more than the stops and panics so far. -/
theorem C61_restarts (c : Cfg) {h : List Ev} {s : State} (hr : (sys c).Run h s) :
    begins h ≤ ends h + (1 + stops h + panics h) := by
  have := C61_bound c hr
  omega

/-- The usual task: 50 ms interval, no delay, made through the service. -/
def usual : Cfg := ⟨true, false, true, true⟩

/-- A task that starts after a delay. -/
def later : Cfg := ⟨true, true, true, true⟩

/-- One caller (0) starts a task. -/
def startActs : List Act := [.callStart 0, .client 0, .client 0, .client 0, .client 0, .client 0]

/-- Caller 0 stops it. -/
def stopActs : List Act := [.callStop 0, .client 0, .client 0, .client 0]

/-- **C61** is violated: a panic in the handler starts a second goroutine (L59), but the first one goes on
with its loop (L82-85), so that two handler calls run at the same time. -/
theorem C61_panic_refuted :
    ∃ h s, (sys usual).Run h s ∧ starts h = 1 ∧ ¬ OneAtATime h := by
  refine ⟨[.started 0, .startRet 0, .hstart 0, .hend 0, .panic 0, .hstart 1, .hstart 0], _,
    Lts.run_of_exec (M := sys usual)
    (as := startActs ++ [.loop 0 false false, .loop 0 false false, .loop 0 true false, .loop 0 false false,
      .loop 1 false false, .loop 1 false false, .loop 0 false false, .fire 1, .loop 0 false false,
      .loop 0 false false]) rfl, rfl, ?_⟩
  simp [OneAtATime, begins, ends]

/-- **C61** is violated without any panic: a task that is stopped and started again while its handler runs
runs it twice at the same time. -/
theorem C61_restart_refuted :
    ∃ h s, (sys usual).Run h s ∧ panics h = 0 ∧ ¬ OneAtATime h := by
  refine ⟨[.started 0, .startRet 0, .hstart 0, .stopCall 0, .stopRet 0 true, .started 0, .startRet 0, .hstart 1], _,
    Lts.run_of_exec (M := sys usual)
    (as := startActs ++ [.loop 0 false false, .loop 0 false false] ++ stopActs ++ startActs ++
      [.loop 1 false false, .loop 1 false false]) rfl, rfl, ?_⟩
  simp [OneAtATime, begins, ends]

/-- An execution with two starts and two rounds that meets the hypotheses of `C61_one_at_a_time_partial`. -/
example : ∃ h s, (sys usual).Run h s ∧ stops h + panics h = 0 ∧ begins h = 2 := by
  refine ⟨[.started 0, .startRet 0, .startRet 0, .hstart 0, .hend 0, .hstart 0], _,
    Lts.run_of_exec (M := sys usual)
    (as := startActs ++ [.callStart 0, .client 0, .client 0, .client 0] ++ [.loop 0 false false, .loop 0 false false,
      .loop 0 false false, .loop 0 false false,
      .loop 0 false false, .fire 0, .loop 0 false false, .loop 0 false false]) rfl, ?_, ?_⟩ <;>
  simp [stops, panics, begins]

/-! ## C62: a stopped task is silent -/

/-- **C62**, the part that holds: if the task was started once and has not panicked, at most two handler
calls begin after an effective stop has returned (one round that was under way, one tick that was in the
channel). What is missing: no call at all, and tasks that are restarted. -/
theorem C62_at_most_two_partial (c : Cfg) {h h1 h2 : List Ev} {s : State} {p : Nat} (hr : (sys c).Run h s)
    (hn : starts h + panics h ≤ 1) (he : h = h1 ++ Ev.stopRet p true :: h2) : begins h2 ≤ 2 := by
  obtain ⟨h0, s0, a, s1, pre, post, as, rest, r0, st, e1, e2, ex⟩ := hr.split_at he
  obtain ⟨hc, rfl, rfl, rfl⟩ := stopRet_step st
  have i0 := inv_run r0
  simp only [List.append_nil, List.nil_append] at e1 e2 st
  subst e1; subst e2
  have hn1 : starts (h1 ++ [Ev.stopRet p true]) + panics (h1 ++ [Ev.stopRet p true]) ≤ 1 := by
    rw [he, show h1 ++ Ev.stopRet p true :: h2 = (h1 ++ [Ev.stopRet p true]) ++ h2 by simp,
      starts_append, panics_append] at hn
    omega
  have hn0 : starts h1 + panics h1 ≤ 1 := by rw [starts_append, panics_append] at hn1; omega
  have d := stop_run r0 hn0 p hc
  have st' : step c s0 (.client p) = some (s1, [Ev.stopRet p true]) := st
  obtain ⟨d1, -⟩ := dead_step i0 hn1 d st'
  have hb : starts ((h1 ++ [Ev.stopRet p true]) ++ h2) + panics ((h1 ++ [Ev.stopRet p true]) ++ h2) ≤ 1 := by
    rw [he] at hn; simpa using hn
  have := dead_exec (inv_step i0 st') hb d1 ex
  have := pot_le s1
  omega

/-- **C62**, the part that holds: once a handler call has begun no stop crashes. What is missing: stops
before that. -/
theorem C62_no_crash_partial (c : Cfg) {h h1 h2 : List Ev} {s : State} {p : Nat} (hr : (sys c).Run h s)
    (he : h = h1 ++ Ev.stopCrash p :: h2) : begins h1 = 0 := by
  obtain ⟨h0, s0, a, s1, pre, post, as, rest, r0, st, e1, e2, ex⟩ := hr.split_at he
  obtain ⟨hc, rfl, rfl⟩ := stopCrash_step st
  simp only [List.append_nil] at e1
  subst e1
  have i0 := inv_run r0
  rcases Nat.eq_zero_or_pos (begins h1) with h' | h'
  · exact h'
  · exact absurd hc (i0.has (i0.beg h'))

/-- **C62** is violated: stopping a task during its delay crashes the process (its ticker is not made yet). -/
theorem C62_delay_refuted : ∃ h s, (sys later).Run h s ∧ ¬ NoStopCrash h := by
  refine ⟨[.started 0, .startRet 0, .stopCall 0, .stopCrash 0], _, Lts.run_of_exec (M := sys later)
    (as := startActs ++ [.callStop 0, .client 0, .client 0]) rfl, ?_⟩
  intro hn; exact hn 0 (by simp)

/-- **C62** is violated without a delay, too: `start` returns before the goroutine has made the ticker. -/
theorem C62_early_refuted : ∃ h s, (sys usual).Run h s ∧ ¬ NoStopCrash h := by
  refine ⟨[.started 0, .startRet 0, .stopCall 0, .stopCrash 0], _, Lts.run_of_exec (M := sys usual)
    (as := startActs ++ [.callStop 0, .client 0, .client 0]) rfl, ?_⟩
  intro hn; exact hn 0 (by simp)

/-- The bound of `C62_at_most_two_partial` is met: a round and a tick are left when stop returns. -/
theorem C62_two_refuted : ∃ h1 h2 s, (sys usual).Run (h1 ++ Ev.stopRet 0 true :: h2) s ∧
    starts (h1 ++ Ev.stopRet 0 true :: h2) + panics (h1 ++ Ev.stopRet 0 true :: h2) = 1 ∧ begins h2 = 2 := by
  refine ⟨[.started 0, .startRet 0, .stopCall 0], [.hstart 0, .hend 0, .hstart 0], _, Lts.run_of_exec (M := sys usual)
    (as := startActs ++ [.loop 0 false false, .fire 0] ++ stopActs ++ [.loop 0 false false, .loop 0 false false,
     .loop 0 false false, .loop 0 false false, .loop 0 false false, .loop 0 false false]) rfl, ?_, ?_⟩ <;>
  simp [starts, panics, begins]

/-- A task whose second goroutine lives although it was stopped. -/
def Zombie (s : State) : Prop :=
  s.crashed = false ∧ s.tstate = .stop ∧ s.cl 0 = .idle ∧ s.loop 1 = .recv 1 ∧ s.ticker = some 1 ∧ s.ntk = 2 ∧
    s.tk 1 = ⟨false, false⟩

/-- Another stop, which finds the task stopped, and another round. -/
def againActs : List Act :=
  [.callStop 0, .client 0, .fire 1, .loop 1 false false, .loop 1 false false, .loop 1 false false, .loop 1 false false,
   .loop 1 false false]

def again : List Ev := [.stopCall 0, .stopRet 0 false, .hstart 1, .hend 1]

theorem zombie_again {s : State} (z : Zombie s) :
    ∃ s', (sys usual).exec s againActs = some (s', again) ∧ Zombie s' := by
  obtain ⟨z1, z2, z3, z4, z5, z6, z7⟩ := z
  simp [againActs, Lts.exec, sys, step, client, loopStep, usual, again, Zombie, z1, z2, z3, z4, z5, z6, z7, upd_apply]

theorem zombie_more {h : List Ev} {s : State} (hr : (sys usual).Run h s) (z : Zombie s) (n : Nat) :
    ∃ s', (sys usual).Run (h ++ (List.replicate n again).flatten) s' ∧ Zombie s' := by
  induction n with
  | zero => exact ⟨s, by simpa using hr, z⟩
  | succ n ih =>
    obtain ⟨s1, r1, z1⟩ := ih
    obtain ⟨s2, e2, z2⟩ := zombie_again z1
    refine ⟨s2, ?_, z2⟩
    have := r1.exec e2
    rw [List.replicate_succ', List.flatten_append]
    simpa using this

/-- **C62** is violated for good: start, stop, start, stop in quick succession leaves a task that runs its
handler any number of times, and all further stops return without any effect. -/
theorem C62_unstoppable_refuted (n : Nat) :
    ∃ h1 h2 s, (sys usual).Run (h1 ++ Ev.stopRet 0 true :: h2) s ∧ panics (h1 ++ Ev.stopRet 0 true :: h2) = 0 ∧
      starts h2 = 0 ∧ begins h2 = n + 1 ∧ h2.count (.stopRet 0 false) = n := by
  have hz : ∃ s, (sys usual).Run
      [.started 0, .startRet 0, .hstart 0, .hend 0, .stopCall 0, .stopRet 0 true, .started 0, .startRet 0, .stopCall 0,
       .stopRet 0 true, .hstart 1, .hend 1] s ∧ Zombie s := by
    refine ⟨_, Lts.run_of_exec (M := sys usual)
      (as := startActs ++ [.loop 0 false false, .loop 0 false false, .loop 0 false false] ++ stopActs ++ startActs ++
        stopActs ++ [.loop 1 false false, .loop 1 false false, .loop 1 false false, .loop 1 false false,
        .loop 1 false false]) rfl, ?_⟩
    refine ⟨rfl, rfl, rfl, rfl, rfl, rfl, rfl⟩
  obtain ⟨s, r, z⟩ := hz
  obtain ⟨s', r', -⟩ := zombie_more r z n
  refine ⟨[.started 0, .startRet 0, .hstart 0, .hend 0, .stopCall 0, .stopRet 0 true, .started 0, .startRet 0,
    .stopCall 0], [.hstart 1, .hend 1] ++ (List.replicate n again).flatten, s', by simpa using r', ?_, ?_, ?_, ?_⟩
  · have : ∀ m, panics (List.replicate m again).flatten = 0 := by
      intro m
      induction m with
      | zero => rfl
      | succ m ih => rw [List.replicate_succ, List.flatten_cons, panics_append, ih]; rfl
    rw [show ∀ a b : List Ev, ∀ e, a ++ e :: ([.hstart 1, .hend 1] ++ b) = (a ++ e :: [.hstart 1, .hend 1]) ++ b by simp,
      panics_append, this]
    rfl
  · rw [starts_append]
    suffices ∀ m, starts (List.replicate m again).flatten = 0 by rw [this]; rfl
    intro m
    induction m with
    | zero => rfl
    | succ m ih => rw [List.replicate_succ, List.flatten_cons, starts_append, ih]; rfl
  · rw [begins_append]
    suffices ∀ m, begins (List.replicate m again).flatten = m by rw [this]; simp [begins]; omega
    intro m
    induction m with
    | zero => rfl
    | succ m ih => rw [List.replicate_succ, List.flatten_cons, begins_append, ih]; simp [again, begins]; omega
  · rw [List.count_append]
    suffices ∀ m, (List.replicate m again).flatten.count (.stopRet 0 false) = m by rw [this]; simp
    intro m
    induction m with
    | zero => rfl
    | succ m ih => rw [List.replicate_succ, List.flatten_cons, List.count_append, ih]; simp [again]; omega

/-- The unstoppable task contradicts the statement. -/
theorem C62_silent_refuted : ∃ h s, (sys usual).Run h s ∧ ¬ SilentAfterStop h := by
  obtain ⟨h1, h2, s, r, -, a, b, -⟩ := C62_unstoppable_refuted 0
  exact ⟨_, s, r, fun hs => by have := hs h1 h2 0 rfl a; omega⟩

/-- A stop after a first round, which meets the hypotheses of the partial theorems. -/
example : ∃ h1 h2 s, (sys usual).Run (h1 ++ Ev.stopRet 0 true :: h2) s ∧ begins h1 = 1 ∧
    starts (h1 ++ Ev.stopRet 0 true :: h2) + panics (h1 ++ Ev.stopRet 0 true :: h2) ≤ 1 := by
  refine ⟨[.started 0, .startRet 0, .hstart 0, .hend 0, .stopCall 0], [], _, Lts.run_of_exec (M := sys usual)
    (as := startActs ++ [.loop 0 false false, .loop 0 false false, .loop 0 false false] ++ stopActs) rfl, ?_, ?_⟩ <;>
  simp [starts, panics, begins]

end Braid.TickTask
