import Verif.Reenter.Timed
import Verif.Reenter.Props

/-
C125: a reentrant call is over when its deadline comes, after 30 seconds if it has none.
-/
namespace Braid.Reenter
open Braid Spec

/-- The events of the calls. -/
def projEv : List TEv → List Ev :=
  List.filterMap fun
    | .ev _ e => some e
    | _ => none

theorem projEv_map (t : Nat) (l : List Ev) : projEv (l.map (.ev t)) = l := by
  induction l with
  | nil => rfl
  | cons e l ih => simp [projEv] at ih ⊢; exact ih

theorem projEv_append (l l' : List TEv) : projEv (l ++ l') = projEv l ++ projEv l' := List.filterMap_append ..

theorem mem_projEv {h : List TEv} {e : Ev} : e ∈ projEv h ↔ ∃ t, .ev t e ∈ h := by
  simp only [projEv, List.mem_filterMap]
  constructor
  · rintro ⟨x, hx, he⟩
    cases x with
    | ev t e' => cases he; exact ⟨t, hx⟩
    | begun => cases he
    | subEnd => cases he
  · rintro ⟨t, ht⟩
    exact ⟨_, ht, rfl⟩

theorem tlift_eq {s s' : TState} {a : Act} {evs : List TEv} (hs : tlift s a = some (s', evs)) :
    ∃ b es, step s.base a = some (b, es) ∧ s' = { s with base := b } ∧ evs = es.map (.ev s.now) := by
  simp only [tlift, Option.map_eq_some_iff] at hs
  obtain ⟨⟨b, es⟩, h1, h2⟩ := hs
  cases h2
  exact ⟨b, es, h1, rfl, rfl⟩

theorem step_n {s s' : State} {a : Act} {evs : List Ev} (hs : step s a = some (s', evs)) :
    s'.n = s.n + (match a with | .begin _ _ => 1 | _ => 0) := by
  cases a <;> simp only [step, complete, setCall] at hs <;> (repeat' split at hs) <;> cases hs <;> rfl

theorem step_ctxEnd {s s' : State} {a : Act} {evs : List Ev} (hs : step s a = some (s', evs)) {c : Nat} {e : String}
    (hm : .ctxEnd c e ∈ evs) : a = .ctxEnd c e := by
  cases a <;> simp only [step, complete, setCall] at hs <;> (repeat' split at hs) <;> cases hs <;> simp at hm
  obtain ⟨rfl, rfl⟩ := hm
  rfl

theorem step_completed {s s' : State} {a : Act} {evs : List Ev} (hs : step s a = some (s', evs)) {c : Nat} {w : Wrap}
    (hm : .completed c w false ∈ evs) : ∃ e, w = ⟨some e, none⟩ ∧ (s.call c).g1 = .complete e := by
  cases a <;> simp only [step, complete, setCall] at hs <;> (repeat' split at hs) <;> cases hs <;> simp at hm
  obtain ⟨rfl, rfl⟩ := hm
  exact ⟨_, rfl, by assumption⟩

/-- What is known of the deadlines, and the calls below. -/
structure TInv (h : List TEv) (s : TState) : Prop where
  run : sys.Run (projEv h) s.base
  begun : ∀ t c d, .begun t c d ∈ h → s.deadline c = d ∧ c < s.base.n
  known : ∀ c d, s.deadline c = some d → ∃ t, .begun t c (some d) ∈ h
  past : ∀ t e, .ev t e ∈ h → t ≤ s.now
  ended : ∀ t c, .ev t (.ctxEnd c dle) ∈ h → ∃ t' d, .begun t' c (some d) ∈ h ∧ d ≤ t
  times : ∀ t c, .ev t (.completed c ⟨some dle, none⟩ false) ∈ h → ∃ t' d, .begun t' c (some d) ∈ h ∧ d ≤ t

/-- A step of the goroutines keeps it. -/
theorem tinv_lift {h : List TEv} {s s' : TState} {a : Act} {evs : List TEv} (i : TInv h s) (hs : tlift s a = some (s', evs))
    (hb : ∀ e r, a ≠ .begin e r) (hd : ∀ c, a = .ctxEnd c dle → ∃ d, s.deadline c = some d ∧ d ≤ s.now) : TInv (h ++ evs) s' := by
  obtain ⟨b, es, h1, rfl, rfl⟩ := tlift_eq hs
  have hn : b.n = s.base.n := by
    rw [step_n h1]
    cases a <;> simp
    exact absurd rfl (hb _ _)
  have hmem : ∀ t e, TEv.ev t e ∈ h ++ es.map (TEv.ev s.now) → .ev t e ∈ h ∨ (t = s.now ∧ e ∈ es) := by
    intro t e hm
    rcases List.mem_append.1 hm with hm | hm
    · exact .inl hm
    · obtain ⟨x, hx, he⟩ := List.mem_map.1 hm
      cases he
      exact .inr ⟨rfl, hx⟩
  refine ⟨?_, ?_, ?_, ?_, ?_, ?_⟩
  · rw [projEv_append, projEv_map]
    exact i.run.step h1
  · intro t c d hm
    have hm : .begun t c d ∈ h := by simpa using hm
    dsimp only
    rw [hn]
    exact i.begun t c d hm
  · intro c d hc
    obtain ⟨t, ht⟩ := i.known c d hc
    exact ⟨t, List.mem_append_left _ ht⟩
  · intro t e hm
    rcases hmem t e hm with hm | ⟨rfl, -⟩
    · exact i.past t e hm
    · exact Nat.le_refl _
  · intro t c hm
    rcases hmem t _ hm with hm | ⟨rfl, hm'⟩
    · obtain ⟨t', d, h2, h3⟩ := i.ended t c hm
      exact ⟨t', d, List.mem_append_left _ h2, h3⟩
    · obtain ⟨d, h2, h3⟩ := hd c (step_ctxEnd h1 hm')
      obtain ⟨t', h4⟩ := i.known c d h2
      exact ⟨t', d, List.mem_append_left _ h4, h3⟩
  · intro t c hm
    rcases hmem t _ hm with hm | ⟨rfl, hm'⟩
    · obtain ⟨t', d, h2, h3⟩ := i.times t c hm
      exact ⟨t', d, List.mem_append_left _ h2, h3⟩
    · obtain ⟨e, h2, h3⟩ := step_completed h1 hm'
      cases h2
      obtain ⟨t0, h4⟩ := mem_projEv.1 ((invA_run i.run).g1c c _ h3)
      obtain ⟨t', d, h5, h6⟩ := i.ended t0 c h4
      exact ⟨t', d, List.mem_append_left _ h5, Nat.le_trans h6 (i.past t0 _ h4)⟩

theorem tinv_run {h : List TEv} {s : TState} (hr : tsys.Run h s) : TInv h s := by
  refine hr.invariant (P := TInv) ⟨.init, by simp, by simp [tsys, tinit], by simp, by simp, by simp⟩ ?_
  intro h s a s' evs hr i hs
  cases a with
  | begin e0 r0 d =>
    cases hs
    refine ⟨?_, ?_, ?_, ?_, ?_, ?_⟩
    · have := i.run.step (a := .begin e0 r0) rfl
      simpa [projEv] using this
    · intro t c d' hm
      have hm : .begun t c d' ∈ h ∨ (t = s.now ∧ c = s.base.n ∧ d' = d) := by simpa using hm
      dsimp only [setCall]
      rcases hm with hm | ⟨-, rfl, rfl⟩
      · obtain ⟨h1, h2⟩ := i.begun t c d' hm
        rw [upd_of_ne _ _ (by omega)]
        exact ⟨h1, by omega⟩
      · rw [upd_same]
        exact ⟨rfl, by omega⟩
    · intro c d' hc
      dsimp only [upd_apply] at hc
      split at hc
      · subst hc
        rename_i hc
        exact ⟨s.now, by simp [hc]⟩
      · obtain ⟨t, ht⟩ := i.known c d' hc
        exact ⟨t, List.mem_append_left _ ht⟩
    · intro t e hm
      have hm : .ev t e ∈ h ∨ (t = s.now ∧ e = .begin s.base.n e0) := by simpa using hm
      rcases hm with hm | ⟨rfl, -⟩
      · exact i.past t e hm
      · exact Nat.le_refl _
    · intro t c hm
      obtain ⟨t', d', h2, h3⟩ := i.ended t c (by simpa using hm)
      exact ⟨t', d', List.mem_append_left _ h2, h3⟩
    · intro t c hm
      obtain ⟨t', d', h2, h3⟩ := i.times t c (by simpa using hm)
      exact ⟨t', d', List.mem_append_left _ h2, h3⟩
  | wait t =>
    cases hs
    rw [List.append_nil]
    exact ⟨i.run, i.begun, i.known, fun t' e hm => Nat.le_trans (i.past t' e hm) (Nat.le_add_right _ _), i.ended, i.times⟩
  | due c =>
    simp only [tsys, tstep] at hs
    split at hs
    · split at hs
      · rename_i d h1 h2
        refine tinv_lift i hs (by simp) ?_
        intro c' hc
        cases hc
        exact ⟨d, h1, h2⟩
      · cases hs
    · cases hs
  | subDue c =>
    simp only [tsys, tstep] at hs
    split at hs
    · cases hs
      refine ⟨?_, ?_, ?_, ?_, ?_, ?_⟩
      · simpa [projEv] using i.run
      · simpa using i.begun
      · intro c d hc
        obtain ⟨t, ht⟩ := i.known c d hc
        exact ⟨t, List.mem_append_left _ ht⟩
      · simpa using i.past
      · intro t c hm
        obtain ⟨t', d', h2, h3⟩ := i.ended t c (by simpa using hm)
        exact ⟨t', d', List.mem_append_left _ h2, h3⟩
      · intro t c hm
        obtain ⟨t', d', h2, h3⟩ := i.times t c (by simpa using hm)
        exact ⟨t', d', List.mem_append_left _ h2, h3⟩
    · cases hs
  | run a =>
    cases a with
    | begin => cases hs
    | ctxEnd c e =>
      simp only [tsys, tstep] at hs
      split at hs
      · cases hs
      · rename_i hne
        refine tinv_lift i hs (by simp) ?_
        intro c' hc
        cases hc
        exact absurd rfl hne
    | _ => exact tinv_lift i hs (by simp) (by simp)

/-- **C125**, the part that holds: when nothing is left to be done, the future of a call whose deadline has come is completed, unless
`Sys.Call` has returned and the actor is busy or stopped. What is missing: calls without a deadline, and the rest; see the refutations. -/
theorem C125_deadline_partial {h : List TEv} {s : TState} (hr : tsys.Run h s) (hq : Rest s) {t c d : Nat}
    (hb : .begun t c (some d) ∈ h) (hd : d ≤ s.now) (hl : (∀ t o, .ev t (.callRet c o) ∉ h) ∨ s.base.loop = .sel) :
    ∃ t' w b, .ev t' (.completed c w b) ∈ h := by
  have i := tinv_run hr
  obtain ⟨h1, h2⟩ := i.begun t c _ hb
  have ha := invA_run i.run
  have hin : ∀ a, Internal a → step s.base a = none := fun a hint => by
    have h3 := hq.1 a hint
    cases a <;> first | exact absurd hint id | simpa [tstep, tlift] using h3
  obtain ⟨e, he⟩ : ∃ e, (s.base.call c).ctx = some e := by
    have h3 := hq.2.1 c
    simp only [tstep, h1, hd, if_true, tlift, Option.map_eq_none_iff, step, h2, true_and] at h3
    cases hc : (s.base.call c).ctx with
    | none => simp [hc] at h3
    | some e => exact ⟨e, rfl⟩
  suffices h5 : ∃ w b, .completed c w b ∈ projEv h by
    obtain ⟨w, b, h5⟩ := h5
    obtain ⟨t', h6⟩ := mem_projEv.1 h5
    exact ⟨t', w, b, h6⟩
  rcases hl with hl | hl
  · have hb := invB_run i.run
    have h3 := hin (.g1 c true) trivial
    cases hg : (s.base.call c).g1 with
    | wait => simp [step, hg, he] at h3
    | complete e => simp [step, hg] at h3
    | ended =>
      rcases hb.g1 c h2 hg with h4 | h4
      · obtain ⟨w, hw⟩ := Option.ne_none_iff_exists'.1 h4
        obtain ⟨b, h5⟩ := hb.ended c w hw
        exact ⟨w, b, h5⟩
      · obtain ⟨o, ho⟩ := Option.ne_none_iff_exists'.1 h4
        obtain ⟨t', h5⟩ := mem_projEv.1 (ha.inner c o ho)
        exact absurd h5 (hl t' o)
  · exact C16_completed_at_rest i.run hin hl (.inr ⟨e, ha.ctx c e he⟩)

/-- **C125**, the part that holds: the future is never completed for a deadline before it has come, nor for the timeout. -/
theorem C125_not_early {h : List TEv} {s : TState} (hr : tsys.Run h s) {t c : Nat}
    (hc : .ev t (.completed c ⟨some dle, none⟩ false) ∈ h) : ∃ t' d, .begun t' c (some d) ∈ h ∧ d ≤ t :=
  (tinv_run hr).times t c hc

/-- **C125**, what completes a future: without a deadline only the return of `Sys.Call`, or the caller who cancels the context. -/
theorem C125_only {h : List TEv} {s : TState} (hr : tsys.Run h s) {t c : Nat} (hb : .begun t c none ∈ h) {t' : Nat} {w : Wrap} {b : Bool}
    (hc : .ev t' (.completed c w b) ∈ h) : ∃ t'', t'' ≤ s.now ∧ ((∃ o, .ev t'' (.callRet c o) ∈ h) ∨ ∃ e, e ≠ dle ∧ .ev t'' (.ctxEnd c e) ∈ h) := by
  have i := tinv_run hr
  have h1 := ((invB_run i.run).events c w b (mem_projEv.2 ⟨t', hc⟩)).1
  rcases (invB_run i.run).value c w h1 with ⟨e, -, h2⟩ | ⟨e, -, h2⟩ | ⟨e0, r, -, h2, -⟩
  · obtain ⟨t0, h3⟩ := mem_projEv.1 h2
    refine ⟨t0, i.past _ _ h3, .inr ⟨e, ?_, h3⟩⟩
    rintro rfl
    obtain ⟨t1, d, h4, -⟩ := i.ended t0 c h3
    have h5 := (i.begun _ _ _ h4).1
    rw [(i.begun _ _ _ hb).1] at h5
    cases h5
  · obtain ⟨t0, h3⟩ := mem_projEv.1 h2
    exact ⟨t0, i.past _ _ h3, .inl ⟨_, h3⟩⟩
  · obtain ⟨t0, h3⟩ := mem_projEv.1 h2
    exact ⟨t0, i.past _ _ h3, .inl ⟨_, h3⟩⟩

/-- One call, and nothing left to be done. -/
theorem rest_of {s : TState} (hl : s.base.loop = .sel ∧ s.base.queue = [] ∨ s.base.loop = .work 0) (hn : s.base.n = 1)
    (he : s.subEnded 0 = true) (hd : s.deadline 0 = none ∨ (s.base.call 0).ctx ≠ none)
    (h1 : (s.base.call 0).g1 = .ended ∨ (s.base.call 0).g1 = .wait ∧ (s.base.call 0).ctx = none ∧ (s.base.call 0).inner = none)
    (h2 : (s.base.call 0).g2 = .ended ∨ (s.base.call 0).g2 = .calling)
    (h3 : (s.base.call 0).cb1 = .stored ∨ (s.base.call 0).cb1 = .ended)
    (hz : ∀ c, c ≠ 0 → s.deadline c = none ∧ s.base.call c = ⟨⟨none, none⟩, none, .ended, .ended, .off, none, none⟩) : Rest s := by
  refine ⟨?_, ?_, ?_⟩
  · intro a ha
    cases a with
    | then1 c =>
      by_cases hc : c = 0
      · subst hc; rcases h3 with h3 | h3 <;> simp [tstep, tlift, step, h3]
      · simp [tstep, tlift, step, hn, hc]
    | g1 c b =>
      by_cases hc : c = 0
      · subst hc; rcases h1 with h1 | ⟨h1, h4, h5⟩ <;> simp [tstep, tlift, step, *]
      · simp [tstep, tlift, step, hz c hc]
    | g2 c =>
      by_cases hc : c = 0
      · subst hc; rcases h2 with h2 | h2 <;> simp [tstep, tlift, step, h2]
      · simp [tstep, tlift, step, hz c hc]
    | push c =>
      by_cases hc : c = 0
      · subst hc; rcases h3 with h3 | h3 <;> simp [tstep, tlift, step, h3]
      · simp [tstep, tlift, step, hz c hc]
    | select => rcases hl with ⟨h, h'⟩ | h <;> simp [tstep, tlift, step, *]
    | loop => rcases hl with ⟨h, h'⟩ | h <;> simp [tstep, tlift, step, *]
    | _ => exact absurd ha id
  · intro c
    by_cases hc : c = 0
    · subst hc
      rcases hd with hd | hd
      · simp [tstep, hd]
      · simp only [tstep, tlift, step, hd, and_false, if_false, Option.map_none, ite_self]
        split <;> rfl
    · simp [tstep, hz c hc]
  · intro c
    by_cases hc : c = 0
    · subst hc; simp [tstep, he]
    · simp [tstep, hn, hc]

/-- **C125** is violated: the timeout of 30 seconds ends nothing. A call without a deadline is not over after any time, though nothing
is left to be done, the loop of the actor is free and the context with the timeout has ended: its `Sys.Call` has not returned. -/
theorem C125_default_refuted (T : Nat) : ∃ h s, tsys.Run h s ∧ Rest s ∧ s.base.loop = .sel ∧ .begun 0 0 none ∈ h ∧
    .subEnd s.now 0 ∈ h ∧ T ≤ s.now ∧ 30 * 1000 ≤ s.now ∧ ∀ t w b, .ev t (.completed 0 w b) ∉ h := by
  obtain ⟨s, he, h1, h2⟩ : ∃ s, tsys.exec tinit [.begin none none none, .run (.then1 0), .wait (30 * 1000 + T), .subDue 0] =
      some (s, [.begun 0 0 none, .ev 0 (.begin 0 none), .subEnd (30 * 1000 + T) 0]) ∧ s.now = 30 * 1000 + T ∧
      s.base.loop = .sel ∧ s.base.queue = [] ∧ s.base.n = 1 ∧ s.deadline 0 = none ∧ s.subEnded 0 = true ∧
      s.base.call 0 = ⟨⟨none, none⟩, none, .wait, .calling, .stored, none, none⟩ ∧
      ∀ c, c ≠ 0 → s.deadline c = none ∧ s.base.call c = ⟨⟨none, none⟩, none, .ended, .ended, .off, none, none⟩ := by
    simp [Lts.exec, tsys, tinit, tstep, tlift, init, step, setCall, timeoutOf]
    intro c hc
    simp [upd_of_ne _ _ hc]
  refine ⟨_, _, Lts.run_of_exec (M := tsys) he, ?_, h2.1, by simp, by simp [h1], by omega, by omega, by simp⟩
  obtain ⟨hl, hq, hn, hd, he, hc, hz⟩ := h2
  exact rest_of (.inl ⟨hl, hq⟩) hn he (.inl hd) (by simp [hc]) (by simp [hc]) (by simp [hc]) hz

/-- **C125** is violated with a deadline, too, when `Sys.Call` has returned: the future waits for the loop of the actor, whatever the
time, while it is busy. -/
theorem C125_busy_refuted (T : Nat) : ∃ h s, tsys.Run h s ∧ Rest s ∧ s.base.loop = .work 0 ∧ .begun 0 0 (some 1) ∈ h ∧
    T + 1 ≤ s.now ∧ (∀ t w b, .ev t (.completed 0 w b) ∉ h) := by
  obtain ⟨s, he, h1, h2⟩ : ∃ s, tsys.exec tinit [.begin none none (some 1), .run (.then1 0), .run (.callRet 0 (.ok none)), .run (.g2 0),
      .run (.g1 0 false), .run (.push 0), .run .work, .wait (T + 1), .due 0, .subDue 0] =
      some (s, [.begun 0 0 (some 1), .ev 0 (.begin 0 none), .ev 0 (.callRet 0 (.ok none)), .ev 0 (.workStart 0),
        .ev (T + 1) (.ctxEnd 0 dle), .subEnd (T + 1) 0]) ∧ s.now = T + 1 ∧
      s.base.loop = .work 0 ∧ s.base.n = 1 ∧ s.subEnded 0 = true ∧
      s.base.call 0 = ⟨⟨none, none⟩, some dle, .ended, .ended, .ended, some (.ok none), none⟩ ∧
      ∀ c, c ≠ 0 → s.deadline c = none ∧ s.base.call c = ⟨⟨none, none⟩, none, .ended, .ended, .off, none, none⟩ := by
    simp [Lts.exec, tsys, tinit, tstep, tlift, init, step, setCall, timeoutOf]
    intro c hc
    simp [upd_of_ne _ _ hc]
  refine ⟨_, _, Lts.run_of_exec (M := tsys) he, ?_, h2.1, by simp, by omega, by simp⟩
  obtain ⟨hl, hn, he, hc, hz⟩ := h2
  exact rest_of (.inr hl) hn he (.inr (by simp [hc])) (by simp [hc]) (by simp [hc]) (by simp [hc]) hz

/-- **C125** as stated is violated. -/
theorem C125_in_time_refuted : ¬ InTime := fun hall => by
  obtain ⟨h, s, hr, hq, -, hb, -, -, ht, hc⟩ := C125_default_refuted 0
  obtain ⟨t, w, b, hm⟩ := hall h s hr hq 0 0 none hb (by simpa [limit] using ht)
  exact hc t w b hm

/-- A call whose deadline comes while `Sys.Call` has not returned: the hypotheses of `C125_deadline_partial` and `C125_not_early`. -/
example : ∃ h s, tsys.Run h s ∧ Rest s ∧ .begun 0 0 (some 5) ∈ h ∧ 5 ≤ s.now ∧ (∀ t o, .ev t (.callRet 0 o) ∉ h) ∧
    .ev 7 (.completed 0 ⟨some dle, none⟩ false) ∈ h := by
  obtain ⟨s, he, h1, h2⟩ : ∃ s, tsys.exec tinit [.begin none none (some 5), .run (.then1 0), .wait 7, .due 0, .subDue 0, .run (.g1 0 true),
      .run (.g1 0 true)] = some (s, [.begun 0 0 (some 5), .ev 0 (.begin 0 none), .ev 7 (.ctxEnd 0 dle), .subEnd 7 0,
        .ev 7 (.completed 0 ⟨some dle, none⟩ false)]) ∧ s.now = 7 ∧
      (s.base.loop = .sel ∧ s.base.queue = []) ∧ s.base.n = 1 ∧ s.subEnded 0 = true ∧
      s.base.call 0 = ⟨⟨none, none⟩, some dle, .ended, .calling, .stored, none, some ⟨some dle, none⟩⟩ ∧
      ∀ c, c ≠ 0 → s.deadline c = none ∧ s.base.call c = ⟨⟨none, none⟩, none, .ended, .ended, .off, none, none⟩ := by
    simp [Lts.exec, tsys, tinit, tstep, tlift, init, step, setCall, timeoutOf, complete]
    intro c hc
    simp [upd_of_ne _ _ hc]
  refine ⟨_, _, Lts.run_of_exec (M := tsys) he, ?_, by simp, by omega, by simp, by simp⟩
  obtain ⟨hl, hn, he, hc, hz⟩ := h2
  exact rest_of (.inl hl) hn he (.inr (by simp [hc])) (by simp [hc]) (by simp [hc]) (by simp [hc]) hz

/-- A call without a deadline that is completed: the hypotheses of `C125_only`. -/
example : ∃ h s, tsys.Run h s ∧ .begun 3 0 none ∈ h ∧ .ev 4 (.completed 0 ⟨none, some 9⟩ true) ∈ h :=
  ⟨_, _, Lts.run_of_exec (M := tsys) (as := [.wait 3, .begin none none none, .run (.then1 0), .wait 1, .run (.callRet 0 (.ok (some 9))),
    .run (.g2 0), .run (.push 0), .run .select, .run .loop, .run .loop]) rfl, by decide, by decide⟩

/-- What is known of the timeouts of L210. -/
structure SInv (h : List TEv) (s : TState) : Prop where
  fresh : ∀ t c d, .begun t c d ∈ h → c < s.base.n
  known : ∀ t c d, .begun t c d ∈ h → limit t d ≤ s.timeout c ∧ t ≤ s.timeout c ∧ (s.timeout c = limit t d ∨ s.timeout c = t)
  past : ∀ t c, .subEnd t c ∈ h → s.subEnded c = true ∧ c < s.base.n ∧ s.timeout c ≤ t

theorem sinv_lift {h : List TEv} {s s' : TState} {a : Act} {evs : List TEv} (i : SInv h s) (hs : tlift s a = some (s', evs)) :
    SInv (h ++ evs) s' := by
  obtain ⟨b, es, h1, rfl, rfl⟩ := tlift_eq hs
  have hn : s.base.n ≤ b.n := by rw [step_n h1]; omega
  refine ⟨fun t c d hm => ?_, fun t c d hm => i.known t c d (by simpa using hm), fun t c hm => ?_⟩
  · have := i.fresh t c d (by simpa using hm)
    dsimp only; omega
  · obtain ⟨h2, h3, h4⟩ := i.past t c (by simpa using hm)
    exact ⟨h2, by dsimp only; omega, h4⟩

theorem sinv_run {h : List TEv} {s : TState} (hr : tsys.Run h s) : SInv h s := by
  refine hr.invariant (P := SInv) ⟨by simp, by simp, by simp⟩ ?_
  intro h s a s' evs hr i hs
  cases a with
  | begin e0 r0 d =>
    cases hs
    refine ⟨fun t c d' hm => ?_, fun t c d' hm => ?_, fun t c hm => ?_⟩
    · have hm : .begun t c d' ∈ h ∨ (t = s.now ∧ c = s.base.n ∧ d' = d) := by simpa using hm
      dsimp only [setCall]
      rcases hm with hm | ⟨-, rfl, -⟩
      · have := i.fresh t c d' hm; omega
      · omega
    · have hm : .begun t c d' ∈ h ∨ (t = s.now ∧ c = s.base.n ∧ d' = d) := by simpa using hm
      dsimp only [setCall]
      rcases hm with hm | ⟨rfl, rfl, rfl⟩
      · have := i.fresh t c d' hm
        rw [upd_of_ne _ _ (by omega)]
        exact i.known t c d' hm
      · rw [upd_same]
        cases d' with
        | none => exact ⟨Nat.le_refl _, Nat.le_add_right _ _, .inl rfl⟩
        | some d =>
          have h1 : timeoutOf s.now (some d) = s.now + (d - s.now) := rfl
          have h2 : limit s.now (some d) = d := rfl
          exact ⟨by omega, by omega, by omega⟩
    · have hm : .subEnd t c ∈ h := by simpa using hm
      obtain ⟨h2, h3, h4⟩ := i.past t c hm
      dsimp only [setCall]
      rw [upd_of_ne _ _ (by omega)]
      exact ⟨h2, by omega, h4⟩
  | wait t =>
    cases hs
    simp only [List.append_nil]
    exact ⟨i.fresh, i.known, i.past⟩
  | due c =>
    simp only [tsys, tstep] at hs
    split at hs
    · split at hs
      · exact sinv_lift i hs
      · cases hs
    · cases hs
  | subDue c =>
    simp only [tsys, tstep] at hs
    split at hs
    · rename_i hc
      cases hs
      refine ⟨fun t c' d hm => i.fresh t c' d (by simpa using hm), fun t c' d hm => i.known t c' d (by simpa using hm), fun t c' hm => ?_⟩
      have hm : .subEnd t c' ∈ h ∨ (t = s.now ∧ c' = c) := by simpa using hm
      dsimp only
      rcases hm with hm | ⟨rfl, rfl⟩
      · obtain ⟨h2, h3, h4⟩ := i.past t c' hm
        refine ⟨?_, h3, h4⟩
        rw [upd_apply]
        split
        · rfl
        · exact h2
      · exact ⟨upd_same .., hc.1, hc.2.1⟩
    · cases hs
  | run a =>
    simp only [tsys, tstep] at hs
    split at hs
    · cases hs
    · split at hs
      · cases hs
      · exact sinv_lift i hs
    · exact sinv_lift i hs

/-- **C125**, the timeout: it ends no earlier than the limit of the call (the deadline of its context, 30 seconds if there is none) and
no earlier than the call; when nothing is left to be done and both have come, it has ended. -/
theorem C125_timeout {h : List TEv} {s : TState} (hr : tsys.Run h s) {t c : Nat} {d : Option Nat} (hb : .begun t c d ∈ h) :
    (∀ t', .subEnd t' c ∈ h → limit t d ≤ t' ∧ t ≤ t') ∧
    (Rest s → limit t d ≤ s.now → t ≤ s.now → s.subEnded c = true) := by
  have i := sinv_run hr
  obtain ⟨h1, h2, h3⟩ := i.known t c d hb
  refine ⟨fun t' hm => ?_, fun hq hl ht => ?_⟩
  · have := (i.past t' c hm).2.2
    exact ⟨by omega, by omega⟩
  · have hz := hq.2.2 c
    cases hsub : s.subEnded c with
    | true => rfl
    | false =>
      simp only [tstep] at hz
      rw [if_pos ⟨i.fresh t c d hb, by rcases h3 with h3 | h3 <;> omega, hsub⟩] at hz
      cases hz

example : ∃ h s, tsys.Run h s ∧ .begun 2 0 none ∈ h ∧ .subEnd 30005 0 ∈ h :=
  ⟨_, _, Lts.run_of_exec (M := tsys) (as := [.wait 2, .begin none none none, .wait 30003, .subDue 0]) rfl, by decide +kernel,
    by decide +kernel⟩

end Braid.Reenter
