import Verif.Actor.ExitR
import Verif.Actor.Props

/-
Property C109: `Exit` returns and the loop of the actor ends.
-/
namespace Braid.Actor
open Spec

/-- C109: whatever the schedule, an actor does a bounded amount of work: at most 19 steps for everything that comes from
outside and 7 for every call of `Exit`, not counting the looks at the shutdown signal and the queues while it is closing. -/
theorem C109_bounded {self : String} {as : List Act} {h : List Ev} {s : State}
    (he : (sys self).exec init as = some (s, h)) :
    worked self init as ≤ 19 * as.countP outside + 7 * as.countP isExit := work_bounded he

/-- C109: and when this work is done every call of `Exit` has returned, the loop has ended and every delivery has returned,
even if the ten seconds of `checkClose` never pass. (A second call of `Exit` crashes the process, `C13_second_exit_crashes`.) -/
theorem C109_exit_returns {self : String} {as : List Act} {h : List Ev} {s : State}
    (he : (sys self).exec init as = some (s, h)) (hc : s.crashed = false) (hq : Quiet self s) {x : Nat}
    (hx : .exitCall x ∈ h) : .exitRet x ∈ h ∧ .loopEnd ∈ h ∧ ∀ p, returns p h = calls p as := by
  have hr : (sys self).Run h s := Lts.run_of_exec he
  obtain ⟨h1, h2⟩ := ext_run hr x hx
  have hl := stopped_of_quiet hr hc hq h1
  have k := invK_run hr
  refine ⟨?_, k.stopped.1 hl, fun p => ?_⟩
  · rcases h2 with h2 | h2 | h2
    · have h3 := quiet_none hq (a := .exitWait x) rfl rfl (by simp) (fun _ _ => rfl)
      simp [step, hc, h2, k.stop (k.stopped.1 hl)] at h3
    · exact h2
    · rw [hc] at h2; cases h2
  · have hidle := idle_of_rest hr hc p (quiet_none hq rfl rfl (by simp) (fun _ _ => rfl))
    have := calls_exec p he
    rw [hidle] at this
    simpa [busy, init, sys] using this.symm

/-- C109: by then every message has been handled and its caller released that was in the mailbox when the actor began to
close, if no delivery was under way at that moment and the ten seconds did not pass. -/
theorem C109_handled {self : String} {as : List Act} {h1 h2 : List Ev} {s : State}
    (he : (sys self).exec init as = some (s, h1 ++ .closing :: h2)) (hc : s.crashed = false) (hq : Quiet self s)
    (hset : Settled h1) (hf : .forced ∉ h1 ++ h2) {p id : Nat} {m : Msg} (hm : .enter p id m ∈ h1) :
    (∃ o, .finish id m o ∈ h1 ++ .closing :: h2) ∧ .released id m ∈ h1 ++ .closing :: h2 := by
  have hr : (sys self).Run (h1 ++ .closing :: h2) s := Lts.run_of_exec he
  have k := invK_run hr
  have hn : .closing ∉ h1 := closing_once hr
  have hsd := shut_run hr (fun h0 => k.memr (by simp) (k.off.2 h0))
  have hl := stopped_of_quiet hr hc hq hsd
  have hch := k.stop (k.stopped.1 hl)
  have hpass : Passed (h1 ++ .closing :: h2) s := .inr (.inr ⟨.inr (k.ch hch), by simpa using hf⟩)
  have ht := drained_run hr hpass h1 (List.prefix_append _ _) hn p id m (hset p id m hm) fun q b y hb => hset q b y hb.mem_left
  have q := invQ_run hr
  have hs : .start id m ∈ h1 ++ .closing :: h2 := by
    rcases ht with ht | ht
    · exact ht
    · rw [q.other (by simp [hl]) (by simp [hl])] at ht; simp [Mpsc.CPc.inflight] at ht
  have hw := invW_run hr
  have h1' : (id, m) ∈ (h1 ++ .closing :: h2).filterMap fStart := List.mem_filterMap.2 ⟨_, hs, rfl⟩
  rw [hw.start, hl] at h1'
  simp only [pendFinish, List.append_nil] at h1'
  have h2' := h1'
  rw [hw.finish, hl] at h2'
  simp only [pendRelease, List.append_nil] at h2'
  obtain ⟨e, h3, h4⟩ := List.mem_filterMap.1 h1'
  cases e <;> simp [fFinish] at h4
  obtain ⟨rfl, rfl⟩ := h4
  obtain ⟨e, h5, h6⟩ := List.mem_filterMap.1 h2'
  cases e <;> simp [fReleased] at h6
  obtain ⟨rfl, rfl⟩ := h6
  exact ⟨⟨_, h3⟩, h5⟩

/-- C109: likewise every reentry action has run that was in the reentry queue when the actor began to close. -/
theorem C109_reentry {self : String} {as : List Act} {h1 h2 : List Ev} {s : State}
    (he : (sys self).exec init as = some (s, h1 ++ .closing :: h2)) (hc : s.crashed = false) (hq : Quiet self s)
    (hset : SettledR h1) (hf : .forced ∉ h1 ++ h2) {p id r : Nat} (hm : .renter p id r ∈ h1) :
    .actionEnd id r ∈ h1 ++ .closing :: h2 := by
  have hr : (sys self).Run (h1 ++ .closing :: h2) s := Lts.run_of_exec he
  have k := invK_run hr
  have hn : .closing ∉ h1 := closing_once hr
  have hsd := shut_run hr (fun h0 => k.memr (by simp) (k.off.2 h0))
  have hl := stopped_of_quiet hr hc hq hsd
  have hpass : PassedR (h1 ++ .closing :: h2) s := .inr ⟨.inr (k.ch (k.stop (k.stopped.1 hl))), by simpa using hf⟩
  have hs : (id, r) ∈ (h1 ++ .closing :: h2).filterMap fActionStart := by
    rcases drainedR_run hr hpass h1 (List.prefix_append _ _) hn hset p id r hm with ht | ht
    · exact mem_fActionStart.2 ht
    · rw [(invQ_run hr).rother (by simp [hl]) (by simp [hl])] at ht; simp [Mpsc.CPc.inflight] at ht
  rw [actions_run hr, hl] at hs
  simp only [pendAction, List.append_nil] at hs
  obtain ⟨e, h3, h4⟩ := List.mem_filterMap.1 hs
  cases e <;> simp [fActionEnd] at h4
  obtain ⟨rfl, rfl⟩ := h4
  exact h3

/-- C109: so if moreover nothing enters the mailbox from then on, no caller is left waiting. -/
theorem C109_groups {self : String} {as : List Act} {h1 h2 : List Ev} {s : State}
    (he : (sys self).exec init as = some (s, h1 ++ .closing :: h2)) (hc : s.crashed = false) (hq : Quiet self s)
    (hset : Settled h1) (hf : .forced ∉ h1 ++ h2) (hno : ∀ p id m, .enter p id m ∉ h2) (g : Nat) : s.wg g = 0 := by
  have hr : (sys self).Run (h1 ++ .closing :: h2) s := Lts.run_of_exec he
  have k := invK_run hr
  have hsd := shut_run hr (fun h0 => k.memr (by simp) (k.off.2 h0))
  have hl := stopped_of_quiet hr hc hq hsd
  have hidle := fun p => idle_of_rest hr hc p (quiet_none hq rfl rfl (by simp) (fun _ _ => rfl))
  have hw := invW_run hr
  have hstart : ∀ p id m, .enter p id m ∈ h1 ++ .closing :: h2 → .start id m ∈ h1 ++ .closing :: h2 := by
    intro p id m hm
    have hm : .enter p id m ∈ h1 := by
      simp only [List.mem_append, List.mem_cons, reduceCtorEq, false_or] at hm
      exact hm.resolve_right (hno p id m)
    obtain ⟨⟨o, h3⟩, -⟩ := C109_handled he hc hq hset hf hm
    have h4 : (id, m) ∈ (h1 ++ .closing :: h2).filterMap fFinish := List.mem_filterMap.2 ⟨_, h3, rfl⟩
    have h5 : (id, m) ∈ (h1 ++ .closing :: h2).filterMap fStart := by rw [hw.start]; exact List.mem_append_left _ h4
    obtain ⟨e, h6, h7⟩ := List.mem_filterMap.1 h5
    cases e <;> simp [fStart] at h7
    obtain ⟨rfl, rfl⟩ := h7
    exact h6
  have e1 := C12_group_count hr hidle (by simp [hl]) g
  have e2 := C12_never_negative hr g
  have e3 := enter_le_start hr hstart g
  have e4 : ((h1 ++ .closing :: h2).filterMap aEnter).countP (ofGroup g) = accepted g (h1 ++ .closing :: h2) := by
    rw [countP_accepted]
    apply List.Perm.countP_eq
    rw [List.perm_iff_count]
    rintro ⟨p, m⟩
    rw [count_enter, count_accepted, hw.enter p, hidle p]
    simp [pendPush]
  have e5 : (started (h1 ++ .closing :: h2)).countP (ofGroup g) = finished g (h1 ++ .closing :: h2) := by
    rw [countP_finished, started_eq, hw.start, hl]; simp [pendFinish]
  omega

/-- States in which nothing at all can go on are quiet. -/
theorem quiet_of_stopped {self : String} {s : State} (hc : s.crashed = false) (hl : s.loop = .stopped)
    (hk : s.chk = .finished) (hx : ∀ x, s.ext x ≠ .waiting) (hp : ∀ p, s.snd p = .idle) (hq : ∀ p, s.rq.prods p = .idle) :
    Quiet self s := by
  have key : ∀ a s2 evs, step self s a = some (s2, evs) → outside a = true ∨ isExit a = true := by
    intro a s2 evs hs
    cases a with
    | exit x => exact .inr rfl
    | recv p m => exact .inl rfl
    | deliver p m => exact .inl rfl
    | rpush p r => exact .inl rfl
    | tick t => exact .inl rfl
    | onEvent ev => exact .inl rfl
    | exitWait x =>
      cases h : s.ext x with
      | waiting => exact absurd h (hx x)
      | _ => simp [step, hc, h] at hs
    | select c => cases c <;> simp [step, hc, stepSelect, hl] at hs
    | _ => simp [step, hc, stepSend, hp, Mpsc.step, Mpsc.stepProd, hq, stepLoop, stepEnded, hl, stepCheck, hk] at hs
  have stay : ∀ s1, Polled self s s1 → s1 = s := by
    intro s1 h
    induction h with
    | refl => rfl
    | step _ h1 h2 ih =>
      subst ih
      rename_i a _ _
      rcases key _ _ _ h1 with h | h <;> cases a <;> simp [outside, isExit, polls] at h h2
  intro s1 h1 a s2 evs h2
  rw [stay s1 h1] at h2
  rcases key a s2 evs h2 with h | h
  · exact .inl h
  · exact .inr (.inl h)

/-- A schedule that meets the hypotheses of all the theorems: a message is in the mailbox when the actor begins to close;
`checkClose` looks and has to look again, the message is handled, `Exit` returns and the loop ends. -/
example : ∃ as h1 h2 s, (sys "a").exec init as = some (s, h1 ++ .closing :: h2) ∧ s.crashed = false ∧ Quiet "a" s ∧
    .exitCall 9 ∈ h1 ∧ .enter 0 1 m1 ∈ h1 ∧ .finish 1 m1 .ok ∈ h2 ∧ Settled h1 ∧ .forced ∉ h1 ++ h2 ∧
    (∀ p id m, .enter p id m ∉ h2) ∧ worked "a" init as = 24 ∧ as.length = 27 := by
  refine ⟨[.onEvent "e"] ++ sendActs 0 m1 ++ [.exit 9, .select .shutdown, .check false] ++ roundActs .ok ++
      [.check false, .check false, .check false, .check false, .check false, .exitWait 9, .select .close],
    [.onEvent "e" true, .call 0 m1, .added 0 m1, .enter 0 1 m1, .accepted 0 1 m1, .exitCall 9],
    [.poll, .start 1 m1, .finish 1 m1 .ok, .released 1 m1, .exitRet 9, .loopEnd], _, rfl, rfl, ?_, by simp, by simp, by simp, ?_,
    by simp, by simp, by decide +kernel, by decide +kernel⟩
  · refine quiet_of_stopped rfl rfl rfl (fun x => ?_) (fun p => ?_) (fun p => rfl)
    · by_cases h : x = 9
      · subst h; simp [upd_same]; done
      · simp [upd_of_ne, h, init]; done
    · by_cases h : p = 0
      · subst h; rfl
      · simp [upd_of_ne, h]; rfl
  · intro p id m hm
    simp at hm
    obtain ⟨rfl, rfl, rfl⟩ := hm
    simp

/-- A schedule for `C109_reentry`: an action is in the reentry queue when the actor begins to close. -/
example : ∃ as h1 h2 s, (sys "a").exec init as = some (s, h1 ++ .closing :: h2) ∧ s.crashed = false ∧ Quiet "a" s ∧
    .renter 3 1 5 ∈ h1 ∧ SettledR h1 ∧ .forced ∉ h1 ++ h2 := by
  refine ⟨[.rpush 3 5, .rsend 3, .rsend 3, .rsend 3, .rsend 3, .exit 9, .select .shutdown, .check false, .check false,
      .select .reenter, .loop, .loop, .loop, .loop, .loop, .ended .ok,
      .check false, .check false, .check false, .check false, .check false, .exitWait 9, .select .close],
    [.renter 3 1 5, .rentered 1, .exitCall 9],
    [.rpoll, .actionStart 1 5, .actionEnd 1 5, .exitRet 9, .loopEnd], _, rfl, rfl, ?_, by simp, ?_, by simp⟩
  · refine quiet_of_stopped rfl rfl rfl (fun x => ?_) (fun p => rfl) (fun p => ?_)
    · by_cases h : x = 9
      · subst h; simp [upd_same]; done
      · simp [upd_of_ne, h, init]; done
    · by_cases h : p = 3
      · subst h; rfl
      · simp [upd_of_ne, h]; rfl
  · intro p id r hm
    simp at hm
    obtain ⟨rfl, rfl, rfl⟩ := hm
    simp

/-- C109, the full statement: when the work of an actor that was told to exit is done, no caller is left waiting. -/
def ExitReleases (self : String) : Prop :=
  ∀ as h s x, (sys self).exec init as = some (s, h) → s.crashed = false → Quiet self s → .exitCall x ∈ h →
    .forced ∉ h → ∀ g, s.wg g = 0

/-- C109 is violated: a call of `Received` that overlaps with the end of the loop puts its message in the mailbox of an actor
that has stopped. Its caller waits for good. -/
theorem C109_refuted : ¬ ExitReleases "a" := by
  intro hall
  have hrun : ∃ s, (sys "a").exec init [.recv 0 m1, .send 0, .exit 9, .select .shutdown,
      .check false, .check false, .check false, .check false, .exitWait 9, .select .close,
      .send 0, .send 0, .send 0, .send 0, .send 0, .send 0] = some (s, [.call 0 m1, .exitCall 9, .closing, .exitRet 9,
        .loopEnd, .added 0 m1, .enter 0 1 m1, .accepted 0 1 m1]) ∧ s.crashed = false ∧ Quiet "a" s ∧ s.wg 7 = 1 := by
    refine ⟨_, rfl, rfl, ?_, rfl⟩
    refine quiet_of_stopped rfl rfl rfl (fun x => ?_) (fun p => ?_) (fun p => rfl)
    · by_cases h : x = 9
      · subst h; simp [upd_same]; done
      · simp [upd_of_ne, h, init]; done
    · by_cases h : p = 0
      · subst h; rfl
      · simp [upd_of_ne, h]; rfl
  obtain ⟨s, h1, h2, h3, h4⟩ := hrun
  have := hall _ _ _ 9 h1 h2 h3 (by simp) (by simp) 7
  rw [h4] at this
  cases this

/-- The loop is running user code: a handler, the callback of a timer or a reentry action. -/
def InTask (s : State) : Prop := (∃ id m, s.loop = .handle id m) ∨ (∃ t, s.loop = .timer t) ∨ ∃ id r, s.loop = .action id r

/-- C109 is violated for calls from inside: while a handler (timer callback, reentry action) that began before the actor was
told to exit has not ended, no call of `Exit` returns. So a handler that calls `Exit` on its own actor, as
`ActorContext.Unregister` does with its own id (core/node/system_impl.go:164), never ends, nor does the call. -/
theorem C109_inside_refuted {self : String} {h : List Ev} {s : State} (hr : (sys self).Run h s) (ht : InTask s)
    (hk : .closing ∉ h) {as : List Act} {s' : State} {evs : List Ev} (he : (sys self).exec s as = some (s', evs))
    (hn : ∀ o, .ended o ∉ as) (x : Nat) : .exitRet x ∉ evs := by
  have k := invK_run hr
  have h0 : s.chk = .off := Classical.byContradiction fun h => hk (k.mem h)
  have h1 : s.closeCh = false := by
    cases hc : s.closeCh with
    | false => rfl
    | true => rw [k.ch hc] at h0; cases h0
  clear hr hk k
  induction as generalizing s evs with
  | nil => simp [Lts.exec] at he; simp [he.2]
  | cons a as ih =>
    simp only [Lts.exec] at he
    split at he
    · cases he
    · rename_i s1 e1 hs
      split at he
      · cases he
      · rename_i s2 e2 hs2
        cases he
        have key : InTask s1 ∧ s1.chk = .off ∧ s1.closeCh = false ∧ .exitRet x ∉ e1 := by
          have hna : ∀ o, a ≠ .ended o := fun o h => hn o (by simp [h])
          simp only [sys] at hs
          clear ih hs2 hn
          unfold InTask at *
          cases a <;> step_cases hs <;> simp_all
        simp only [List.mem_append, not_or]
        exact ⟨key.2.2.2, ih key.1 hs2 (fun o h => hn o (by simp [h])) key.2.1 key.2.2.1⟩

/-- The hypotheses hold: the handler of a message is running, and `Exit` is called. -/
example : ∃ h s s' evs, (sys "a").Run h s ∧ InTask s ∧ .closing ∉ h ∧ (sys "a").exec s [.exit 9] = some (s', evs) ∧
    .exitCall 9 ∈ evs :=
  ⟨_, _, _, _, Lts.run_of_exec (M := sys "a") (as := [.onEvent "e"] ++ sendActs 0 m1 ++
    [.select .mail, .loop, .loop, .loop, .loop, .loop]) rfl, .inl ⟨_, _, rfl⟩, by decide, rfl, by decide⟩

end Braid.Actor
