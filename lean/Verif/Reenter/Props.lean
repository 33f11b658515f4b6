import Verif.Reenter.Inv2
import Verif.Reenter.Measure

/-
Properties C15 (callbacks of reentrant calls run on the actor) and C16 (the future of a reentrant call
is completed exactly once).
-/
namespace Braid.Reenter
open Spec

theorem one_event {s s' : State} {a : Act} {evs : List Ev} (hs : step s a = some (s', evs)) :
    evs = [] ∨ ∃ e, evs = [e] := by
  cases a <;> re_cases hs <;> simp

theorem split_one {h1 h2 : List Ev} {e : Ev} {s : State} (hr : sys.Run (h1 ++ e :: h2) s) :
    ∃ s0 a s1, sys.Run h1 s0 ∧ step s0 a = some (s1, [e]) := by
  obtain ⟨h0, s0, a, s1, pre, post, as, rest, r0, st0, e1, -, -⟩ := hr.split_at rfl
  rcases one_event st0 with h | ⟨x, hx⟩
  · simp at h
  · cases pre with
    | nil =>
      simp only [List.nil_append, List.append_nil] at hx e1 st0
      cases hx
      subst e1
      exact ⟨s0, a, s1, r0, st0⟩
    | cons y pre => simp at hx

/-- A concrete history: call 0 succeeds, call 1 is cancelled; both have a callback. -/
def exActs : List Act :=
  [.work, .begin none none, .then1 0, .attach 0 0, .begin none none, .then1 1, .attach 1 0, .workEnd,
   .callRet 0 (.ok (some 5)), .g2 0, .push 0, .ctxEnd 1 "canceled", .g1 1 true, .g1 1 true, .select, .loop,
   .loop, .cbRun 0 0]
def exHist : List Ev :=
  [.workStart 0, .begin 0 none, .attach 0 0, .begin 1 none, .attach 1 0, .workEnd 0,
   .callRet 0 (.ok (some 5)), .ctxEnd 1 "canceled", .completed 1 ⟨some "canceled", none⟩ false,
   .completed 0 ⟨none, some 5⟩ true, .cbStart 0 0 ⟨none, some 5⟩]

theorem ex_run : ∃ s, sys.Run exHist s := ⟨_, Lts.run_of_exec (M := sys) (as := exActs) rfl⟩

/-! ### C15 -/

/-- C15, the full statement: the callbacks do not overlap with the handlers of the actor. -/
def CallbacksOnActor : Prop := ∀ h s, sys.Run h s → NoOverlap h

/-- C15 is violated: `Complete` starts the callbacks in new goroutines, and the loop goes on. -/
theorem C15_callbacks_on_actor_refuted : ¬ CallbacksOnActor := by
  intro hall
  have hrun : ∃ s, sys.Run (exHist ++ [.workStart 1]) s :=
    ⟨_, Lts.run_of_exec (M := sys) (as := exActs ++ [.work]) rfl⟩
  obtain ⟨s, hs⟩ := hrun
  have := (hall _ _ hs).1 exHist 1 [] 0 0 ⟨none, some 5⟩ rfl (by decide)
  exact absurd this (by decide)

/-- C15 (partial): the result of the call is written to the caller's wrapper and the future completed
with it by the actor loop, when no handler is running; only the error of an ended context is delivered
from another goroutine. A callback starts only after that completion. Missing from the full statement:
that the callbacks themselves run on the loop. -/
theorem C15_completion_on_actor_partial {h1 h2 : List Ev} {c : Nat} {w : Wrap} {b : Bool} {s : State}
    (hr : sys.Run (h1 ++ .completed c w b :: h2) s) :
    (b = true → ∀ j, .workStart j ∈ h1 → .workEnd j ∈ h1) ∧
    (b = false → ∃ e, w = ⟨some e, none⟩ ∧ .ctxEnd c e ∈ h1) := by
  obtain ⟨s0, a, s1, r0, hs⟩ := split_one hr
  constructor
  · intro hb j hj
    have key : ∀ j, .workStart j ∈ h1 → .workEnd j ∈ h1 ∨ s0.loop = .work j := by
      have := r0.invariant (P := fun h s => (∀ j, .workStart j ∈ h → .workEnd j ∈ h ∨ s.loop = .work j) ∧
        ∀ j, s.loop = .work j → .workEnd j ∉ h → True) (by simp) (by
        intro h s a s' evs _ hi hs
        simp only [sys] at hs
        obtain ⟨hi, -⟩ := hi
        refine ⟨?_, by simp⟩
        cases a <;> re_cases hs <;> grind)
      exact this.1
    rcases key j hj with hk | hk
    · exact hk
    · exfalso
      subst hb
      cases a <;> re_cases hs <;> simp_all
  · intro hb
    have hj := (invB_run (r0.step hs)).events c w b (by simp)
    obtain ⟨e, he, hm⟩ := hj.2 hb
    exact ⟨e, he, by simpa using hm⟩

/-- C15 (partial): a callback starts only after the completion of its future, with its value. -/
theorem C15_callback_after_completion {h1 h2 : List Ev} {c k : Nat} {w : Wrap} {s : State}
    (hr : sys.Run (h1 ++ .cbStart c k w :: h2) s) : ∃ b, .completed c w b ∈ h1 := by
  obtain ⟨s0, a, s1, r0, hs⟩ := split_one hr
  have hc := invC_run (r0.step hs)
  obtain ⟨b, hb⟩ := (invB_run (r0.step hs)).ended c w (hc.started c k w (by simp)).1
  exact ⟨b, by simpa using hb⟩

example : ∃ s, sys.Run ((exHist.take 9) ++ .completed 0 ⟨none, some 5⟩ true :: (exHist.drop 10)) s ∧
    .workStart 0 ∈ exHist.take 9 :=
  let ⟨s, hr⟩ := ex_run; ⟨s, hr, by decide⟩

/-! ### C16 -/

theorem completions_append (c : Nat) (h1 h2 : List Ev) :
    completions c (h1 ++ h2) = completions c h1 ++ completions c h2 := List.filterMap_append ..

theorem completions_run {h : List Ev} {s : State} (hr : sys.Run h s) (c : Nat) :
    completions c h = (s.call c).fut.toList := by
  refine hr.invariant (P := fun h s => completions c h = (s.call c).fut.toList) (by simp [sys, init, completions]) ?_
  intro h s a s' evs hr0 hi hs
  have hun := (invA_run hr0).unused
  rw [completions_append, hi]
  simp only [sys] at hs
  clear hi
  cases a <;> re_cases hs <;> simp only [completions, List.filterMap_cons, List.filterMap_nil] <;>
    grind [upd_apply]

/-- C16: the future of a reentrant call is completed at most once, and each callback attached to it is
started at most once. -/
theorem C16_at_most_once {h : List Ev} {s : State} (hr : sys.Run h s) (c : Nat) :
    (completions c h).length ≤ 1 ∧
    ∀ h1 h2 k w, h = h1 ++ .cbStart c k w :: h2 → ∀ w', .cbStart c k w' ∉ h1 := by
  constructor
  · rw [completions_run hr]; cases (s.call c).fut <;> simp
  · intro h1 h2 k w he w' hm
    subst he
    obtain ⟨s0, a, s1, r0, hs⟩ := split_one hr
    have hc := invC_run r0
    have hready : s0.cb c k = .ready w := by
      cases a <;> re_cases hs <;> assumption
    exact (hc.ready c k w hready).2 w' hm

/-- C16: the value is the error of the ended context, or the error or the response of the call. -/
theorem C16_value {h1 h2 : List Ev} {c : Nat} {w : Wrap} {b : Bool} {s : State}
    (hr : sys.Run (h1 ++ .completed c w b :: h2) s) : Justified c w h1 := by
  obtain ⟨s0, a, s1, r0, hs⟩ := split_one hr
  have hi := invB_run (r0.step hs)
  have hj := hi.value c w (hi.events c w b (by simp)).1
  simpa [Justified] using hj

/-- C16: when the goroutines and the loop have come to rest, the loop has not ended and no other work
is running, the future of every call whose `Sys.Call` has returned or whose context has ended is
completed. -/
theorem C16_completed_at_rest {h : List Ev} {s : State} (hr : sys.Run h s)
    (hrest : ∀ a, Internal a → step s a = none) (hl : s.loop = .sel) {c : Nat}
    (hev : (∃ o, .callRet c o ∈ h) ∨ (∃ e, .ctxEnd c e ∈ h)) : ∃ w b, .completed c w b ∈ h := by
  have ha := invA_run hr
  have hb := invB_run hr
  have hn : c < s.n := by
    by_cases hlt : c < s.n
    · exact hlt
    · obtain ⟨h1, h2, -, -⟩ := ha.evs c (by omega)
      rcases hev with ⟨o, ho⟩ | ⟨e, he⟩
      · exact absurd ho (h1 o)
      · exact absurd he (h2 e)
  suffices hf : (s.call c).fut ≠ none by
    cases hw : (s.call c).fut with
    | none => exact absurd hw hf
    | some w => obtain ⟨b, hb⟩ := hb.ended c w hw; exact ⟨w, b, hb⟩
  -- once the inner future is completed the result reaches the outer one
  have inner : (s.call c).inner ≠ none → (s.call c).fut ≠ none := by
    intro hin
    have hcb : (s.call c).cb1 = .ended := by
      have h1 := hrest (.then1 c) trivial
      have h2 := hrest (.push c) trivial
      have h3 := ha.stored c
      obtain ⟨o, ho⟩ := Option.ne_none_iff_exists'.1 hin
      cases hc1 : (s.call c).cb1 with
      | off => simp [step, hn, hc1, ho] at h1
      | stored => exact absurd (h3 hc1) hin
      | ready => simp [step, hc1, ho] at h2
      | ended => rfl
    rcases hb.track c hcb with ⟨o, ho⟩ | ⟨o, ho⟩ | ho | ho
    · have h4 := hrest .select trivial
      cases hq : s.queue with
      | nil => rw [hq] at ho; cases ho
      | cons x q => simp [step, hl, hq] at h4
    · rw [hl] at ho; cases ho
    · rw [hl] at ho; cases ho
    · exact ho
  rcases hev with ⟨o, ho⟩ | ⟨e, he⟩
  · apply inner
    have h1 := ha.callRet c o ho
    have h2 := hrest (.g2 c) trivial
    cases hg : (s.call c).g2 with
    | calling => exact absurd hg h1
    | complete o => simp [step, hg] at h2
    | ended =>
      intro h3
      exact ((ha.innerNone c hn).1 h3) hg
  · have h1 := ha.ctxRet c e he
    have h2 := hrest (.g1 c true) trivial
    have h3 : (s.call c).g1 = .ended := by
      cases hg : (s.call c).g1 with
      | wait =>
        cases hx : (s.call c).ctx with
        | none => exact absurd hx h1
        | some e => simp [step, hg, hx] at h2
      | complete o => simp [step, hg] at h2
      | ended => rfl
    rcases hb.g1 c hn h3 with h4 | h4
    · exact h4
    · exact inner h4

/-- C16: the goroutines and the loop do come to rest: from every state only a bounded number of their
steps can follow one another. -/
theorem C16_comes_to_rest {h : List Ev} {s s' : State} (hr : sys.Run h s) {as : List Act} {evs : List Ev}
    (hint : ∀ a ∈ as, Internal a) (he : sys.exec s as = some (s', evs)) : as.length ≤ measure s := by
  induction as generalizing h s evs with
  | nil => simp
  | cons a as ih =>
    simp only [Lts.exec] at he
    split at he
    · cases he
    · rename_i s1 e1 hs
      split at he
      · cases he
      · rename_i s2 e2 hs2
        cases he
        have h1 := ih (hr.step hs) (fun a ha => hint a (by simp [ha])) hs2
        have h2 := measure_step (invA_run hr) (hint a (by simp)) hs
        simp only [List.length_cons]
        omega

/-- C16: when the future is completed, a callback attached to it has been started or its goroutine is
ready to run. -/
theorem C16_callback_started {h : List Ev} {s : State} (hr : sys.Run h s) {c k : Nat} {w : Wrap} {b : Bool}
    (ha : .attach c k ∈ h) (hc : .completed c w b ∈ h) :
    .cbStart c k w ∈ h ∨ ∃ s', step s (.cbRun c k) = some (s', [.cbStart c k w]) := by
  have hi := invC_run hr
  have hf := ((invB_run hr).events c w b hc).1
  cases hk : s.cb c k with
  | off => exact absurd hk (hi.attached c k ha)
  | stored => rw [hi.stored c k hk] at hf; cases hf
  | ready w' =>
    right
    have := (hi.ready c k w' hk).1
    rw [hf] at this
    cases this
    exact ⟨_, by simp only [step, hk]; rfl⟩
  | running w' =>
    left
    obtain ⟨h1, h2⟩ := hi.running c k w' hk
    rw [hf] at h1; cases h1; exact h2
  | ended =>
    left
    obtain ⟨w', hw⟩ := hi.ended c k hk
    have := (hi.started c k w' hw).1
    rw [hf] at this; cases this; exact hw

/-- The condition on the loop is needed: when it has ended with the result still in the queue the future
is never completed. -/
theorem C16_ended_loop_loses : ∃ h s, sys.Run h s ∧ (∃ o, .callRet 0 o ∈ h) ∧ .begin 0 none ∈ h ∧
    (∀ a, Internal a → step s a = none) ∧ completions 0 h = [] := by
  refine ⟨[.begin 0 none, .callRet 0 (.ok none), .stop], _, Lts.run_of_exec (M := sys)
    (as := [.begin none none, .then1 0, .callRet 0 (.ok none), .g2 0, .push 0, .g1 0 false, .stop]) rfl,
    ⟨.ok none, by simp⟩, by simp, ?_, rfl⟩
  intro a ha
  cases a with
  | then1 c => by_cases hc : c = 0 <;> simp [step, setCall, hc, init, upd_apply, sys]
  | g1 c b => by_cases hc : c = 0 <;> simp [step, setCall, hc, init, upd_apply, sys]
  | g2 c => by_cases hc : c = 0 <;> simp [step, setCall, hc, init, upd_apply, sys]
  | push c => by_cases hc : c = 0 <;> simp [step, setCall, hc, init, upd_apply, sys]
  | select => rfl
  | loop => rfl
  | _ => cases ha

/-- A run that meets the hypotheses of `C16_completed_at_rest`. -/
example : ∃ h s, sys.Run h s ∧ (∀ a, Internal a → step s a = none) ∧ s.loop = .sel ∧
    .callRet 0 (.err "no") ∈ h := by
  refine ⟨[.begin 0 none, .callRet 0 (.err "no"), .completed 0 ⟨some "no", some 3⟩ true], _,
    Lts.run_of_exec (M := sys) (as := [.begin none (some 3), .then1 0, .callRet 0 (.err "no"), .g2 0,
      .push 0, .g1 0 false, .select, .loop, .loop]) rfl, ?_, rfl, by simp⟩
  intro a ha
  cases a with
  | then1 c => by_cases hc : c = 0 <;> simp [step, setCall, hc, init, upd_apply, sys]
  | g1 c b => by_cases hc : c = 0 <;> simp [step, setCall, hc, init, upd_apply, sys]
  | g2 c => by_cases hc : c = 0 <;> simp [step, setCall, hc, init, upd_apply, sys]
  | push c => by_cases hc : c = 0 <;> simp [step, setCall, hc, init, upd_apply, sys]
  | select => rfl
  | loop => rfl
  | _ => cases ha

end Braid.Reenter
