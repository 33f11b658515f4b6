import Verif.Actor.Rest

/-
Properties C10 (one handler at a time), C11 (order, at most once), C12 (the caller is released exactly
once), C13 (Exit waits) and C14 (an accepted message is handled).
-/
namespace Braid.Actor
open Spec

/-- A concrete run: an actor with a handler for "e" and none for "x" gets two messages and a timer
tick, handles the first and the tick, and has the second in its mailbox. -/
def m1 : Msg := ⟨1, 7, "", "e"⟩
def m2 : Msg := ⟨2, 7, "other", "x"⟩
def sendActs (p : Nat) (m : Msg) : List Act :=
  [.recv p m, .send p, .send p, .send p, .send p, .send p, .send p, .send p]
def roundActs (o : Out) : List Act :=
  [.select .mail, .loop, .loop, .loop, .loop, .loop, .ended o, .loop]
def exActs : List Act :=
  [.onEvent "e"] ++ sendActs 0 m1 ++ sendActs 1 m2 ++ [.tick 5] ++ roundActs .panic ++
    [.select .timer, .loop, .ended .err]
def exHist : List Ev :=
  [.onEvent "e" true, .call 0 m1, .added 0 m1, .enter 0 1 m1, .accepted 0 1 m1, .call 1 m2, .added 1 m2,
    .enter 1 2 m2, .accepted 1 2 m2, .poll, .start 1 m1, .finish 1 m1 .panic, .released 1 m1,
    .timerStart 5, .timerEnd 5]

theorem ex_run : ∃ s, (sys "a").Run exHist s ∧ s.loop = .sel ∧ s.crashed = false ∧
    (∀ p, s.snd p = .idle) ∧ s.wg 7 = 1 := by
  refine ⟨_, Lts.run_of_exec (M := sys "a") (as := exActs) rfl, rfl, rfl, ?_, rfl⟩
  intro p
  by_cases h1 : p = 1
  · subst h1; rfl
  · by_cases h0 : p = 0
    · subst h0; rfl
    · simp [upd_of_ne, h1, h0]; rfl

/-! ### C10 -/

/-- C10: message handlers, timer callbacks and reentry actions of one actor never overlap. -/
theorem C10_one_at_a_time {self : String} {h : List Ev} {s : State} (hr : (sys self).Run h s) :
    OneAtATime h := oneAtATime_of_scan (scan_run hr)

/-- In the example a handler and a timer callback have run. -/
example : ∃ s, (sys "a").Run exHist s ∧ .start 1 m1 ∈ exHist ∧ .timerStart 5 ∈ exHist :=
  let ⟨s, hr, _⟩ := ex_run; ⟨s, hr, by decide, by decide⟩

/-! ### C11 -/

/-- C11: the messages enter the mailbox in some order that respects real time and the order of each
sender, and they are handled in this order, each at most once. -/
theorem C11_in_order {self : String} {h : List Ev} {s : State} (hr : (sys self).Run h s) :
    ∃ order, Explains order h := by
  have hq := (invQ_run hr).runQ
  obtain ⟨order, hex⟩ := Mpsc.C01_fifo hq
  have val : ∀ p id m x, Ev.accepted p id m ∈ h → (id, x) ∈ order → x = m := by
    intro p id m x ha hx
    obtain ⟨q, hq1⟩ := hex.called id x hx
    exact (Mpsc.push_uniq hq hq1 (mem_projQ (accepted_enter hr ha) rfl)).2
  refine ⟨order, hex.once, ?_, ?_, ?_, ?_, ?_⟩
  · intro id m hm
    obtain ⟨p, hp⟩ := hex.called id m hm
    exact ⟨p, pushInv_mem hp⟩
  · intro p id m ha
    obtain ⟨x, hx⟩ := hex.complete id (mem_projQ ha rfl)
    rw [← val p id m x ha hx]; exact hx
  · intro p a x q b y hb hm
    obtain ⟨x', hx'⟩ := hex.realTime a b q y (before_filterMap hb rfl rfl) hm
    rw [val p a x x' hb.mem_left hx'.mem_left] at hx'
    exact hx'
  · intro p a x b y hb hm
    exact hex.program p a x b y (before_filterMap hb rfl rfl) hm
  · have := hex.fifo; rwa [popped_eq] at this

/-- C11: no message is handled twice, and nothing is handled that was not put in the mailbox. -/
theorem C11_at_most_once {self : String} {h : List Ev} {s : State} (hr : (sys self).Run h s) :
    ((started h).map Prod.fst).Nodup ∧
      ∀ id m, .start id m ∈ h → ∃ p, .enter p id m ∈ h :=
  ⟨start_nodup hr, fun _ _ hm => start_enter hr hm⟩

/-- In the example two messages were accepted and one of them was handled. -/
example : ∃ s, (sys "a").Run exHist s ∧ started exHist = [(1, m1)] ∧ .accepted 1 2 m2 ∈ exHist :=
  let ⟨s, hr, _⟩ := ex_run; ⟨s, hr, by decide, by decide⟩

/-! ### C12 -/

/-- C12: when no delivery is under way and the loop is not just releasing a caller, the wait group
counts the accepted messages that have not been handled, however their handling ended. -/
theorem C12_group_count {self : String} {h : List Ev} {s : State} (hr : (sys self).Run h s)
    (hidle : ∀ p, s.snd p = .idle) (hl : ∀ id m, s.loop ≠ .release id m) (g : Nat) :
    s.wg g = (accepted g h : Int) - finished g h := by
  rw [(invW_run hr).wg g, accepted_eq_added hr g hidle, countP_finished, (invW_run hr).finish,
    countP_released]
  have : pendRelease s.loop = [] := by
    cases hl' : s.loop <;> simp [pendRelease]
    exact absurd hl' (hl _ _)
  rw [this, List.append_nil]

/-- C12: the count is never negative, at any moment. -/
theorem C12_never_negative {self : String} {h : List Ev} {s : State} (hr : (sys self).Run h s)
    (g : Nat) : 0 ≤ s.wg g := by
  rw [(invW_run hr).wg g]
  have h1 := enter_le_added hr g
  have h2 := start_le_enter hr g
  have h3 := released_le_start hr g
  omega

/-- C12: each handled message is released exactly once: only handled messages are, none twice, and all
of them are before anything else happens in the loop. -/
theorem C12_released_once {self : String} {h : List Ev} {s : State} (hr : (sys self).Run h s) :
    (∀ id m, .released id m ∈ h → ∃ o, .finish id m o ∈ h) ∧
    (∀ id m, h.count (.released id m) ≤ 1) ∧
    (∀ id m o, .finish id m o ∈ h → .released id m ∈ h ∨ s.loop = .release id m) := by
  have hw := invW_run hr
  have hfin : ∀ {id m}, (id, m) ∈ h.filterMap fFinish ↔ ∃ o, Ev.finish id m o ∈ h := by
    intro id m
    constructor
    · intro hm
      obtain ⟨e, h1, h2⟩ := List.mem_filterMap.1 hm
      cases e <;> simp [fFinish] at h2
      obtain ⟨rfl, rfl⟩ := h2
      exact ⟨_, h1⟩
    · rintro ⟨o, ho⟩; exact List.mem_filterMap.2 ⟨_, ho, rfl⟩
  have hrel : ∀ {id m}, (id, m) ∈ h.filterMap fReleased ↔ Ev.released id m ∈ h := by
    intro id m
    constructor
    · intro hm
      obtain ⟨e, h1, h2⟩ := List.mem_filterMap.1 hm
      cases e <;> simp [fReleased] at h2
      obtain ⟨rfl, rfl⟩ := h2
      exact h1
    · intro hm; exact List.mem_filterMap.2 ⟨_, hm, rfl⟩
  refine ⟨?_, ?_, ?_⟩
  · intro id m hm
    refine hfin.1 ?_
    rw [hw.finish]; exact List.mem_append_left _ (hrel.2 hm)
  · intro id m
    have hn : (started h).Nodup :=
      List.Pairwise.of_map Prod.fst (fun a b hab => fun e => hab (e ▸ rfl)) (start_nodup hr)
    rw [started_eq, hw.start, hw.finish] at hn
    have hn' : (h.filterMap fReleased).Nodup := (List.nodup_append.1 (List.nodup_append.1 hn).1).1
    have hc : h.count (.released id m) = (h.filterMap fReleased).count (id, m) := by
      clear hn hn' hfin hrel hw hr
      induction h with
      | nil => rfl
      | cons e h ih => cases e <;> simp_all [List.filterMap_cons, fReleased, List.count_cons]
    rw [hc]
    exact List.nodup_iff_count.1 hn' _
  · intro id m o hm
    have h1 := hfin.2 ⟨o, hm⟩
    rw [hw.finish] at h1
    rcases List.mem_append.1 h1 with h1 | h1
    · exact .inl (hrel.1 h1)
    · right
      cases hl : s.loop <;> simp [hl, pendRelease] at h1
      obtain ⟨rfl, rfl⟩ := h1; rfl

/-- The hypotheses of `C12_group_count` hold in the example, where the group count is one: two messages
of group 7 accepted, one handled (its handler panicked). -/
example : ∃ s, (sys "a").Run exHist s ∧ (∀ p, s.snd p = .idle) ∧ (∀ id m, s.loop ≠ .release id m) ∧
    s.wg 7 = 1 ∧ accepted 7 exHist = 2 ∧ finished 7 exHist = 1 :=
  let ⟨s, hr, hl, _, hp, hw⟩ := ex_run
  ⟨s, hr, hp, by simp [hl], hw, by decide, by decide⟩

/-! ### C13 -/

/-- C13, the full statement: when `Exit` has returned (without the ten second limit), every message
accepted before the call has been handled to the end. -/
def ExitDrains (self : String) : Prop :=
  ∀ h1 h2 s x, (sys self).Run (h1 ++ .exitCall x :: h2) s → .exitRet x ∈ h2 → .forced ∉ h2 →
    ∀ p id m, .accepted p id m ∈ h1 → ∃ o, .finish id m o ∈ h1 ++ .exitCall x :: h2

/-- C13 is violated: the loop has taken the only message from the mailbox, so the mailbox is empty;
`Exit` returns while the handler is still running. (The loop saw the shutdown signal just before it took
the message.) -/
theorem C13_exit_drains_refuted : ¬ ExitDrains "a" := by
  intro hall
  have hrun : ∃ s, (sys "a").Run
      ([.onEvent "e" true, .call 0 m1, .added 0 m1, .enter 0 1 m1, .accepted 0 1 m1] ++ .exitCall 9 ::
        [.closing, .poll, .start 1 m1, .exitRet 9]) s :=
    ⟨_, Lts.run_of_exec (M := sys "a") (as := [.onEvent "e"] ++ sendActs 0 m1 ++
      [.exit 9, .select .shutdown, .select .mail, .loop, .loop, .loop, .loop, .loop,
       .check false, .check false, .check false, .check false, .exitWait 9]) rfl⟩
  obtain ⟨s, hs⟩ := hrun
  obtain ⟨o, ho⟩ := hall _ _ _ _ hs (by simp) (by simp) 0 1 m1 (by simp)
  simp at ho

/-- C13 (partial): when `Exit` has returned (without the ten second limit), every message accepted before the call has been
handled to the end, unless a delivery that overlapped with its own was still under way when `Exit` was called, and except at
most the one the loop is busy with at that moment: taken from the mailbox and not yet finished. Missing from the full
statement: that one message, and messages behind a delivery under way (`C13_hidden_refuted`). -/
theorem C13_exit_drains_partial {self : String} {h1 h2 : List Ev} {s : State} {x : Nat}
    (hr : (sys self).Run (h1 ++ .exitCall x :: h2) s) (hret : .exitRet x ∈ h2) (hf : .forced ∉ h1 ++ h2)
    {p id : Nat} {m : Msg} (ha : .accepted p id m ∈ h1) (hun : Unhidden h1 p id m) :
    (∃ o, .finish id m o ∈ h1 ++ .exitCall x :: h2) ∨ s.loop = .handle id m ∨
      (s.loop = .pop ∧ (id, m) ∈ s.mb.cons.inflight) := by
  have hk := invK_run hr
  have hcl := exit_before_closing hr rfl hret
  have hch := hk.ret x (by simp [hret])
  have hpass : Passed (h1 ++ .exitCall x :: h2) s :=
    .inr (.inr ⟨.inr (hk.ch hch), by simpa using hf⟩)
  rcases drained_run hr hpass h1 (List.prefix_append _ _) hcl p id m ha hun with ht | ht
  · have hw := (invW_run hr).start
    have : (id, m) ∈ (h1 ++ .exitCall x :: h2).filterMap fStart :=
      List.mem_filterMap.2 ⟨_, ht, rfl⟩
    rw [hw] at this
    rcases List.mem_append.1 this with h3 | h3
    · left
      obtain ⟨e, h4, h5⟩ := List.mem_filterMap.1 h3
      cases e <;> simp [fFinish] at h5
      obtain ⟨rfl, rfl⟩ := h5
      exact ⟨_, h4⟩
    · right; left
      cases hl : s.loop <;> simp [hl, pendFinish] at h3
      obtain ⟨rfl, rfl⟩ := h3; rfl
  · right; right
    have hq := invQ_run hr
    rcases Classical.em (s.loop = .pop) with h3 | h3
    · exact ⟨h3, ht⟩
    · exfalso
      rcases Classical.em (s.loop = .got) with h4 | h4
      · rw [hq.got h4] at ht; simp [Mpsc.CPc.inflight] at ht
      · rw [hq.other h4 h3] at ht; simp [Mpsc.CPc.inflight] at ht

/-- C13 (partial): so if moreover the loop is not inside a handler or about to start one (in
particular when it has ended), everything accepted before the call has been handled to the end. -/
theorem C13_idle_loop_partial {self : String} {h1 h2 : List Ev} {s : State} {x : Nat}
    (hr : (sys self).Run (h1 ++ .exitCall x :: h2) s) (hret : .exitRet x ∈ h2) (hf : .forced ∉ h1 ++ h2)
    (hl : s.loop = .sel ∨ s.loop = .stopped) {p id : Nat} {m : Msg} (ha : .accepted p id m ∈ h1)
    (hun : Unhidden h1 p id m) : ∃ o, .finish id m o ∈ h1 ++ .exitCall x :: h2 := by
  rcases C13_exit_drains_partial hr hret hf ha hun with h | h | h
  · exact h
  · rcases hl with hl | hl <;> rw [hl] at h <;> cases h
  · rcases hl with hl | hl <;> rw [hl] at h <;> cases h.1

/-- A delivery that entered before `Exit` but after the message was accepted does not hide it: it is handled, although the
other delivery has not returned. -/
example : ∃ h1 h2 s, (sys "a").Run (h1 ++ .exitCall 9 :: h2) s ∧ .exitRet 9 ∈ h2 ∧ .forced ∉ h1 ++ h2 ∧
    .accepted 0 1 m1 ∈ h1 ∧ Unhidden h1 0 1 m1 ∧ ¬ Settled h1 ∧ .finish 1 m1 .ok ∈ h2 := by
  refine ⟨[.onEvent "e" true, .call 0 m1, .added 0 m1, .enter 0 1 m1, .accepted 0 1 m1, .call 1 m2, .added 1 m2, .enter 1 2 m2],
    [.closing, .poll, .start 1 m1, .finish 1 m1 .ok, .released 1 m1, .exitRet 9], _,
    Lts.run_of_exec (M := sys "a") (as := [.onEvent "e"] ++ sendActs 0 m1 ++ [.recv 1 m2, .send 1, .send 1, .send 1, .send 1] ++
      [.exit 9, .select .shutdown, .check false] ++ roundActs .ok ++
      [.check false, .check false, .check false, .check false, .check false, .exitWait 9])
      rfl, by simp, by simp, by simp, ?_, ?_, by simp⟩
  · intro q b y hb
    have hm := hb.mem_left
    simp at hm
    rcases hm with ⟨rfl, rfl, rfl⟩ | ⟨rfl, rfl, rfl⟩
    · simp
    · exact absurd hb (by unfold Before; decide)
  · intro hs
    exact absurd (hs 1 2 m2 (by simp)) (by simp)

/-- A run that meets all the hypotheses: one message, handled after `Exit` was called; then `Exit`
returns and the loop ends. -/
example : ∃ h1 h2 s, (sys "a").Run (h1 ++ .exitCall 9 :: h2) s ∧ .exitRet 9 ∈ h2 ∧ .forced ∉ h1 ++ h2 ∧
    Settled h1 ∧ s.loop = .stopped ∧ .accepted 0 1 m1 ∈ h1 ∧ .finish 1 m1 .ok ∈ h2 := by
  refine ⟨[.onEvent "e" true, .call 0 m1, .added 0 m1, .enter 0 1 m1, .accepted 0 1 m1],
    [.closing, .poll, .start 1 m1, .finish 1 m1 .ok, .released 1 m1, .exitRet 9, .loopEnd], _,
    Lts.run_of_exec (M := sys "a") (as := [.onEvent "e"] ++ sendActs 0 m1 ++
      [.exit 9, .select .shutdown, .check false] ++ roundActs .ok ++
      [.check false, .check false, .check false, .check false, .check false, .exitWait 9, .select .close])
      rfl, by simp, by simp, ?_, rfl, by simp, by simp⟩
  intro p id m hm
  simp at hm
  obtain ⟨rfl, rfl, rfl⟩ := hm
  simp

/-- A second call of `Exit` crashes the process (it closes a closed channel). -/
theorem C13_second_exit_crashes {self : String} {h : List Ev} {s : State} (hr : (sys self).Run h s)
    (hc : s.crashed = false) {x y : Nat} (hx : .exitCall x ∈ h) (hy : s.ext y ≠ .waiting) :
    ∃ s', (sys self).step s (.exit y) = some (s', [.exitCall y, .crash]) ∧ s'.crashed = true := by
  have hsd : s.shutdownCh = true := by
    have := hr.invariant (P := fun h s => ∀ x, .exitCall x ∈ h → s.shutdownCh = true) (by simp) (by
      intro h s a s' evs _ hi hs
      simp only [sys] at hs
      cases a <;> step_cases hs <;> grind)
    exact this x hx
  refine ⟨{ s with crashed := true }, ?_, rfl⟩
  simp only [sys, step, hc, hsd]
  split <;> simp_all

/-! ### C14 -/

/-- C14, the full statement in its weakest form: when a message has been accepted it has been
handled, or there is a way to go on such that it is. -/
def AcceptedIsHandled (self : String) : Prop :=
  ∀ h s, (sys self).Run h s → ∀ p id m, .accepted p id m ∈ h →
    ∃ as s' evs, (sys self).exec s as = some (s', evs) ∧ .start id m ∈ h ++ evs

theorem stopped_stays {self : String} {s s' : State} {as : List Act} {evs : List Ev}
    (hl : s.loop = .stopped) (he : (sys self).exec s as = some (s', evs)) (id : Nat) (m : Msg) :
    .start id m ∉ evs := by
  induction as generalizing s evs with
  | nil => simp [Lts.exec] at he; simp [he.2]
  | cons a as ih =>
    simp only [Lts.exec] at he
    split at he
    · cases he
    · rename_i s1 e1 hs
      split at he
      · cases he
      · rename_i s2 e2 hs2
        cases he
        have key : s1.loop = .stopped ∧ .start id m ∉ e1 := by
          simp only [sys] at hs
          cases a <;> step_cases hs <;> simp_all
        simp only [List.mem_append, not_or]
        exact ⟨key.2, ih key.1 hs2⟩

/-- C13 is violated in another way: the call of `Received` has returned before `Exit` is called, and the message is never
handled. It is in the mailbox behind one whose delivery is still under way, which hides it from `checkClose`: `Exit` returns
without the ten second limit, the loop ends, and the message is left whatever happens later. -/
theorem C13_hidden_refuted : ∃ h1 h2 s, (sys "a").Run (h1 ++ .exitCall 9 :: h2) s ∧ .exitRet 9 ∈ h2 ∧ .forced ∉ h1 ++ h2 ∧
    .accepted 0 2 m1 ∈ h1 ∧ s.wg m1.wg = 2 ∧ .start 2 m1 ∉ h1 ++ .exitCall 9 :: h2 ∧
    ∀ as s' evs, (sys "a").exec s as = some (s', evs) → .start 2 m1 ∉ evs := by
  obtain ⟨s, hs, hl, hw⟩ : ∃ s, (sys "a").Run
      ([.onEvent "e" true, .call 1 m2, .added 1 m2, .enter 1 1 m2, .call 0 m1, .added 0 m1, .enter 0 2 m1, .accepted 0 2 m1] ++
        .exitCall 9 :: [.closing, .exitRet 9, .loopEnd]) s ∧ s.loop = .stopped ∧ s.wg m1.wg = 2 :=
    ⟨_, Lts.run_of_exec (M := sys "a") (as := [.onEvent "e", .recv 1 m2, .send 1, .send 1, .send 1, .send 1] ++ sendActs 0 m1 ++
      [.exit 9, .select .shutdown, .check false, .check false, .check false, .check false, .exitWait 9, .select .close]) rfl, rfl,
      rfl⟩
  exact ⟨_, _, s, hs, by simp, by simp, by simp, hw, by simp, fun as s' evs he => stopped_stays hl he 2 m1⟩

/-- C14 is violated: the sender has checked that the actor is not closed; the actor closes and its loop
ends; the sender puts the message in the mailbox and `Received` returns nil. Nobody will handle the
message, and the wait group of the caller is never released. -/
theorem C14_accepted_is_handled_refuted : ¬ AcceptedIsHandled "a" := by
  intro hall
  have hrun : ∃ s, (sys "a").Run [.call 0 m1, .exitCall 9, .closing, .exitRet 9, .loopEnd, .added 0 m1,
      .enter 0 1 m1, .accepted 0 1 m1] s ∧ s.loop = .stopped :=
    ⟨_, Lts.run_of_exec (M := sys "a") (as := [.recv 0 m1, .send 0, .exit 9, .select .shutdown,
      .check false, .check false, .check false, .check false, .exitWait 9, .select .close,
      .send 0, .send 0, .send 0, .send 0, .send 0, .send 0]) rfl, rfl⟩
  obtain ⟨s, hs, hl⟩ := hrun
  obtain ⟨as, s', evs, he, hm⟩ := hall _ _ hs 0 1 m1 (by simp)
  rcases List.mem_append.1 hm with hm | hm
  · simp at hm
  · exact stopped_stays hl he 1 m1 hm

/-- C14 (partial): at any moment when the loop waits in its select (it has not ended) and no delivery is
under way, the loop alone, without waiting for anything but the handlers, goes on to handle all the
accepted messages that have not been handled, in their order. Missing from the full statement:
deliveries that overlap with the end of the loop. -/
theorem C14_accepted_is_handled_partial {self : String} {h : List Ev} {s : State}
    (hr : (sys self).Run h s) (hset : Settled h) (hl : s.loop = .sel) (hc : s.crashed = false) :
    ∃ as s' evs, (sys self).exec s as = some (s', evs) ∧ (∀ a ∈ as, IsLoop a) ∧
      (∀ p id m, .accepted p id m ∈ h → ∃ o, .finish id m o ∈ h ++ evs) ∧
      ∃ order, Explains order h ∧ started h ++ started evs = order := by
  have hq := invQ_run hr
  have hcons : s.mb.cons = .idle := hq.other (by simp [hl]) (by simp [hl])
  obtain ⟨order, k, pend, hg⟩ := Mpsc.run_inv hq.runQ
  have hdone : Mpsc.PushesDone (h.filterMap projQ) := by
    intro p id x hx
    exact mem_projQ (hset p id x (pushInv_mem hx)) rfl
  have hquiet := Mpsc.quiet hg.2.1 hdone
  obtain ⟨as, s', evs, h1, h2, h3, h4⟩ := drain (self := self) hg hquiet hcons hl hc
  have hpops := hg.2.1.pops
  rw [hcons] at hpops
  simp only [Mpsc.CPc.inflight, List.append_nil] at hpops
  rw [popped_eq] at hpops
  have val : ∀ p id m x, Ev.accepted p id m ∈ h → (id, x) ∈ order → x = m := by
    intro p id m x ha hx
    obtain ⟨q, hq1⟩ := hg.2.1.called id x hx
    exact (Mpsc.push_uniq hq.runQ hq1 (mem_projQ (accepted_enter hr ha) rfl)).2
  have hmem : ∀ p id m, Ev.accepted p id m ∈ h → (id, m) ∈ order := by
    intro p id m ha
    obtain ⟨x, hx⟩ := hg.2.1.complete id (mem_projQ ha rfl)
    rw [← val p id m x ha hx]; exact hx
  have hsplit : started h ++ started evs = order := by rw [hpops, h3, List.take_append_drop]
  refine ⟨as, s', evs, h1, h2, ?_, order, ⟨?_, ?_, hmem, ?_, ?_, ?_⟩, hsplit⟩
  · intro p id m ha
    have hm := hmem p id m ha
    rw [← List.take_append_drop k order] at hm
    rcases List.mem_append.1 hm with hm | hm
    · rw [← hpops, mem_started] at hm
      have hw := (invW_run hr).start
      have h5 : (id, m) ∈ h.filterMap fStart := List.mem_filterMap.2 ⟨_, hm, rfl⟩
      rw [hw, hl] at h5
      simp only [pendFinish, List.append_nil] at h5
      obtain ⟨e, h6, h7⟩ := List.mem_filterMap.1 h5
      cases e <;> simp [fFinish] at h7
      obtain ⟨rfl, rfl⟩ := h7
      exact ⟨_, List.mem_append_left _ h6⟩
    · obtain ⟨o, ho⟩ := h4 id m hm
      exact ⟨o, List.mem_append_right _ ho⟩
  · have := hg.1.nodup; rw [Mpsc.chain, List.nodup_cons] at this; exact this.2
  · intro id m hm
    obtain ⟨p, hp⟩ := hg.2.1.called id m hm
    exact ⟨p, pushInv_mem hp⟩
  · intro p a x q b y hb hm
    obtain ⟨x', hx'⟩ := hg.2.1.realTime a b q y (before_filterMap hb rfl rfl) hm
    rw [val p a x x' hb.mem_left hx'.mem_left] at hx'
    exact hx'
  · intro p a x b y hb hm
    exact hg.2.1.program p a x b y (before_filterMap hb rfl rfl) hm
  · rw [← hsplit]; exact List.prefix_append _ _

theorem closed_stays {self : String} {s s' : State} {as : List Act} {evs : List Ev} {p : Nat} {m : Msg}
    (hc : s.closed ≠ 0) (hp : s.snd p = .load m) (hns : ∀ a ∈ as, a ≠ .send p)
    (he : (sys self).exec s as = some (s', evs)) : s'.closed ≠ 0 ∧ s'.snd p = .load m := by
  induction as generalizing s evs with
  | nil => simp [Lts.exec] at he; rw [← he.1]; exact ⟨hc, hp⟩
  | cons a as ih =>
    simp only [Lts.exec] at he
    split at he
    · cases he
    · rename_i s1 e1 hs
      split at he
      · cases he
      · rename_i s2 e2 hs2
        cases he
        have hna : a ≠ .send p := hns a (by simp)
        have key : s1.closed ≠ 0 ∧ s1.snd p = .load m := by
          simp only [sys] at hs
          cases a <;> step_cases hs <;> first
            | exact ⟨hc, hp⟩
            | (simp_all; done)
            | (have : p ≠ ‹Nat› := by rintro rfl; simp_all
               simp_all [upd_of_ne])
            | grind [upd_apply]
        exact ih key.1 key.2 (fun a ha => hns a (by simp [ha])) hs2

/-- C14: every schedule of an actor that is not told to exit comes to rest: it has at most 19 steps for each message,
reentry message, timer tick and registration from outside, whatever the interleaving and however handlers end. -/
theorem C14_comes_to_rest {self : String} {as : List Act} {h : List Ev} {s : State}
    (he : (sys self).exec init as = some (s, h)) (hx : ∀ x, .exit x ∉ as) : as.length ≤ 19 * as.countP outside :=
  (rest_bounded he hx).2

/-- C14: and when it has come to rest (nothing can go on unless something new comes from outside) every call has
returned, every message put in the mailbox has been handled and its caller released, every reentry action has run, and no
wait group is waiting for anything. So an actor that is not told to exit handles every message it takes, in every schedule
that does not stop while something can go on. -/
theorem C14_rest_handled {self : String} {as : List Act} {h : List Ev} {s : State}
    (he : (sys self).exec init as = some (s, h)) (hx : ∀ x, .exit x ∉ as)
    (hrest : ∀ a, outside a = false → (∀ x, a ≠ .exit x) → (sys self).step s a = none) :
    (∀ p, returns p h = calls p as) ∧
    (∀ p id m, .enter p id m ∈ h → .accepted p id m ∈ h ∧ (∃ o, .finish id m o ∈ h) ∧ .released id m ∈ h) ∧
    (∀ p id r, .renter p id r ∈ h → .actionEnd id r ∈ h) ∧ ∀ g, s.wg g = 0 := by
  have run := (rest_bounded he hx).1
  have hr : (sys self).Run h s := Lts.run_of_exec he
  have hq := invQ_run hr
  have hw := invW_run hr
  have hc := run.crash
  have hns : s.loop ≠ .stopped := fun h => by have := not_stopped_run hr h; rw [run.cl] at this; cases this
  have hl := sel_of_rest hr run.crash (hrest .loop rfl (by simp)) (fun o => hrest (.ended o) rfl (by simp)) hns
  have hidle := fun p => idle_of_rest hr run.crash p (hrest (.send p) rfl (by simp))
  have hacc : ∀ p id m, .enter p id m ∈ h → .accepted p id m ∈ h := by
    intro p id m hm
    have h1 : (id, m) ∈ h.filterMap (fEnter p) := List.mem_filterMap.2 ⟨_, hm, by simp [fEnter]⟩
    rw [hw.enter p, hidle p] at h1
    simp only [pendPush, List.append_nil] at h1
    obtain ⟨e, h2, h3⟩ := List.mem_filterMap.1 h1
    cases e <;> simp [fAccepted] at h3
    obtain ⟨rfl, rfl, rfl⟩ := h3
    exact h2
  have hstart : ∀ p id m, .enter p id m ∈ h → .start id m ∈ h := by
    intro p id m hm
    apply Classical.byContradiction
    intro hn
    obtain ⟨t, ht⟩ := Mpsc.C03_no_lost_wakeup hq.runQ
      (fun p id x hx => mem_projQ (hacc p id x (pushInv_mem hx)) rfl) (hq.other (by simp [hl]) (by simp [hl]))
      ⟨p, id, m, mem_projQ hm rfl, by rw [popped_eq, mem_started]; exact hn⟩
    have := hrest (.select .mail) rfl (by simp)
    simp [sys, step, hc, stepSelect, hl, Mpsc.step, hq.other (by simp [hl]) (by simp [hl]), ht] at this
  have hfr : ∀ id m, .start id m ∈ h → (∃ o, .finish id m o ∈ h) ∧ .released id m ∈ h := by
    intro id m hm
    have h1 : (id, m) ∈ h.filterMap fStart := List.mem_filterMap.2 ⟨_, hm, rfl⟩
    rw [hw.start, hl] at h1
    simp only [pendFinish, List.append_nil] at h1
    have h2 := h1
    rw [hw.finish, hl] at h2
    simp only [pendRelease, List.append_nil] at h2
    obtain ⟨e, h3, h4⟩ := List.mem_filterMap.1 h1
    cases e <;> simp [fFinish] at h4
    obtain ⟨rfl, rfl⟩ := h4
    obtain ⟨e, h5, h6⟩ := List.mem_filterMap.1 h2
    cases e <;> simp [fReleased] at h6
    obtain ⟨rfl, rfl⟩ := h6
    exact ⟨⟨_, h3⟩, h5⟩
  refine ⟨fun p => ?_, fun p id m hm => ⟨hacc p id m hm, hfr id m (hstart p id m hm)⟩, ?_, fun g => ?_⟩
  · have := calls_exec p he
    rw [hidle p] at this
    simpa [busy, init, sys] using this.symm
  · intro p id r hm
    have hd : Mpsc.PushesDone (h.filterMap projR) := by
      intro p id x hm
      obtain ⟨order, k, pend, A, B, C⟩ := Mpsc.run_inv hq.runR
      rcases B.done p id x hm with h1 | h1
      · exact h1
      · exfalso
        have := hrest (.rsend p) rfl (by simp)
        cases hp : s.rq.prods p <;> simp [hp, Mpsc.PPc.id?] at h1 <;>
          simp [sys, step, hc, Mpsc.step, Mpsc.stepProd, hp] at this
    have hidleR := hq.rother (by simp [hl]) (by simp [hl])
    have h1 : (id, r) ∈ Mpsc.popped (h.filterMap projR) := by
      apply Classical.byContradiction
      intro hn
      obtain ⟨t, ht⟩ := Mpsc.C03_no_lost_wakeup hq.runR hd hidleR
        ⟨p, id, r, List.mem_filterMap.2 ⟨_, hm, rfl⟩, hn⟩
      have := hrest (.select .reenter) rfl (by simp)
      simp [sys, step, hc, stepSelect, hl, Mpsc.step, hidleR, ht] at this
    rw [popped_projR, actions_run hr, hl] at h1
    simp only [pendAction, List.append_nil] at h1
    obtain ⟨e, h3, h4⟩ := List.mem_filterMap.1 h1
    cases e <;> simp [fActionEnd] at h4
    obtain ⟨rfl, rfl⟩ := h4
    exact h3
  · have h1 := C12_group_count hr hidle (by simp [hl]) g
    have h2 := C12_never_negative hr g
    have h3 := enter_le_start hr hstart g
    have h4 : (h.filterMap aEnter).countP (ofGroup g) = accepted g h := by
      rw [countP_accepted]
      apply List.Perm.countP_eq
      rw [List.perm_iff_count]
      rintro ⟨p, m⟩
      rw [count_enter, count_accepted, hw.enter p, hidle p]
      simp [pendPush]
    have h5 : (started h).countP (ofGroup g) = finished g h := by
      rw [countP_finished, started_eq, hw.start, hl]; simp [pendFinish]
    omega

/-- C14: a call of `Received` that begins after the actor has begun to close returns an error when the
caller runs on, whatever happens in between, and changes neither the mailbox nor the wait group. -/
theorem C14_closed_refuses {self : String} {h : List Ev} {s s1 s2 s3 : State} {p : Nat} {m : Msg}
    {as : List Act} {e1 e2 e3 : List Ev} (hr : (sys self).Run h s) (hc : .closing ∈ h)
    (hother : m.org = "" ∨ m.org ≠ self)
    (hcall : (sys self).step s (.recv p m) = some (s1, e1))
    (hexec : (sys self).exec s1 as = some (s2, e2)) (hns : ∀ a ∈ as, a ≠ .send p)
    (hsend : (sys self).step s2 (.send p) = some (s3, e3)) :
    e3 = [.refused p m false] ∧ s3.mb = s2.mb ∧ s3.wg = s2.wg := by
  have hk := invK_run hr
  have hcl : s.closed ≠ 0 := fun h0 => hk.memr hc (hk.off.2 h0)
  have h1 : s1.closed ≠ 0 ∧ s1.snd p = .load m := by
    simp only [sys] at hcall
    step_cases hcall
    · rename_i _ h2; rcases hother with h | h
      · exact absurd h h2.1
      · exact absurd h2.2 h
    · exact ⟨hcl, by simp⟩
  obtain ⟨h2, h3⟩ := closed_stays h1.1 h1.2 hns hexec
  simp only [sys] at hsend
  step_cases hsend <;> simp_all

/-- C14: whenever `Received` returns an error it has changed neither the mailbox nor the wait group. -/
theorem C14_refused_unchanged {self : String} {s s' : State} {a : Act} {evs : List Ev} {p : Nat}
    {m : Msg} {b : Bool} (hs : (sys self).step s a = some (s', evs)) (hr : .refused p m b ∈ evs) :
    s'.mb = s.mb ∧ s'.wg = s.wg := by
  simp only [sys] at hs
  cases a <;> step_cases hs <;> simp_all

/-- The hypotheses of `C14_accepted_is_handled_partial` hold in the example, where one message is
waiting. -/
example : ∃ s, (sys "a").Run exHist s ∧ Settled exHist ∧ s.loop = .sel ∧ s.crashed = false ∧
    .accepted 1 2 m2 ∈ exHist ∧ .start 2 m2 ∉ exHist := by
  obtain ⟨s, hr, hl, hc, -⟩ := ex_run
  refine ⟨s, hr, ?_, hl, hc, by decide, by decide⟩
  intro p id m hm
  simp [exHist] at hm
  rcases hm with ⟨rfl, rfl, rfl⟩ | ⟨rfl, rfl, rfl⟩ <;> simp [exHist]

/-- A schedule that has come to rest: the example, with the second message handled too. -/
example : ∃ s, (sys "a").exec init (exActs ++ roundActs .unknown) = some (s, exHist ++
      [.poll, .start 2 m2, .finish 2 m2 .unknown, .released 2 m2]) ∧
    ∀ a, outside a = false → (∀ x, a ≠ .exit x) → (sys "a").step s a = none := by
  have h : ∃ s, (sys "a").exec init (exActs ++ roundActs .unknown) = some (s, exHist ++
      [.poll, .start 2 m2, .finish 2 m2 .unknown, .released 2 m2]) ∧ s.crashed = false ∧ s.loop = .sel ∧
      s.timerChan = [] ∧ s.mb.tok = none ∧ s.rq.tok = none ∧ s.shutdownCh = false ∧ s.closeCh = false ∧ s.chk = .off ∧
      (∀ x, s.ext x = .idle) ∧ (∀ p, s.rq.prods p = .idle) ∧ ∀ p, s.snd p = .idle := by
    refine ⟨_, rfl, rfl, rfl, rfl, rfl, rfl, rfl, rfl, rfl, fun _ => rfl, fun _ => rfl, ?_⟩
    intro p
    by_cases h1 : p = 1
    · subst h1; rfl
    · by_cases h0 : p = 0
      · subst h0; rfl
      · simp [upd_of_ne, h1, h0]; rfl
  obtain ⟨s, he, h1, h2, h3, h4, h5, h6, h7, h8, h9, h10, h11⟩ := h
  refine ⟨s, he, fun a ha hx => ?_⟩
  cases a with
  | select c => cases c <;> simp [sys, step, stepSelect, h1, h2, h3, h6, h7, Mpsc.step, h4, h5]
  | exit x => exact absurd rfl (hx x)
  | recv p m => cases ha
  | deliver p m => cases ha
  | rpush p r => cases ha
  | tick t => cases ha
  | onEvent ev => cases ha
  | _ => simp [sys, step, h1, stepSend, h11, Mpsc.step, Mpsc.stepProd, h10, stepLoop, stepEnded, h2, stepCheck, h8, h9]

/-- The hypotheses of `C14_closed_refuses` hold: a call after the actor began to close. -/
example : ∃ h s s1 s2 s3 e1 e2, (sys "a").Run h s ∧ .closing ∈ h ∧
    (sys "a").step s (.recv 0 m1) = some (s1, e1) ∧ (sys "a").exec s1 [.check false] = some (s2, e2) ∧
    (sys "a").step s2 (.send 0) = some (s3, [.refused 0 m1 false]) :=
  ⟨[.exitCall 9, .closing], _, _, _, _, _, _,
    Lts.run_of_exec (M := sys "a") (as := [.exit 9, .select .shutdown]) rfl, by simp, rfl, rfl, rfl⟩

end Braid.Actor
