import Verif.Reuse.Rest

/-
C98: a message wrapper can be used for one call after another.
-/
namespace Braid.Reuse
open Spec

/-- One call that runs to its end: begun, sent, handled, returned. -/
def whole (c : Nat) : List Act :=
  [.call, .go false, .go false, .go false, .go false, .go false, .go false, .go false, .outer c, .inner c, .actor c, .actor c,
   .actor c, .actor c, .inner c, .outer c, .outer c, .go false]

/-- A call that is refused. -/
def refusal : List Act := [.call, .go false, .go true]

/-- **C98 does not hold after a refused call.** `localCall` returns the error of `Received` at once, while the waiter
goroutine it started still has to close `mw.Done`. When the caller tries again with the same wrapper, that goroutine closes
the channel of the second call: the second call returns nil though its message is not handled, and when it is handled the
waiter of the second call closes the channel once more and the process dies. -/
theorem C98_refused_refuted :
    (∃ h s, sys.Run h s ∧ .refused 0 ∈ h ∧ .ret 1 true ∈ h ∧ .handled 1 ∉ h ∧ (∀ d, .timeout d ∉ h) ∧ ¬ Safe h) ∧
    (∃ h s, sys.Run h s ∧ .refused 0 ∈ h ∧ .crash ∈ h ∧ (∀ d, .timeout d ∉ h)) := by
  refine ⟨⟨_, _, Lts.run_of_exec (M := sys)
      (as := refusal ++ [.call, .go false, .outer 0, .inner 0, .outer 0, .outer 0, .go false, .go false, .go false, .go false,
        .go false, .go false, .go false]) rfl, by decide, by decide, by decide, ?_, ?_⟩,
    ⟨_, _, Lts.run_of_exec (M := sys)
      (as := refusal ++ [.call, .go false, .outer 0, .inner 0, .outer 0, .outer 0, .go false, .go false, .go false, .go false,
        .go false, .outer 1, .inner 1, .actor 1, .actor 1, .actor 1, .actor 1, .inner 1, .outer 1, .outer 1]) rfl,
      by decide, by decide, ?_⟩⟩
  · intro d; simp
  · intro hs
    have := hs.2 [.begin 0, .root 0, .refused 0, .ret 0 false, .begin 1, .root 1, .accepted 1] [] 1 rfl (by decide)
    exact absurd this (by decide)
  · intro d; simp

/-- **C98 does not hold after a call whose context ended.** The message of the first call is still in the handler when the
context ends; the caller calls again at the moment the counter is back to 0, and the first waiter closes the channel of the
second call. -/
theorem C98_expired_refuted :
    (∃ h s, sys.Run h s ∧ .expired 0 ∈ h ∧ .ret 1 true ∈ h ∧ .handled 1 ∉ h ∧ (∀ d, .timeout d ∉ h ∧ .refused d ∉ h) ∧
      ¬ Safe h) ∧
    (∃ h s, sys.Run h s ∧ .expired 0 ∈ h ∧ .crash ∈ h ∧ (∀ d, .timeout d ∉ h ∧ .refused d ∉ h)) := by
  refine ⟨⟨_, _, Lts.run_of_exec (M := sys)
      (as := [.call, .go false, .go false, .go false, .go false, .go false, .go false, .go false, .outer 0, .inner 0,
        .expire, .actor 0, .actor 0, .actor 0, .actor 0, .inner 0, .call, .go false, .outer 0, .outer 0, .go false, .go false,
        .go false, .go false, .go false, .go false, .go false]) rfl, by decide, by decide, by decide, ?_, ?_⟩,
    ⟨_, _, Lts.run_of_exec (M := sys)
      (as := [.call, .go false, .go false, .go false, .go false, .go false, .go false, .go false, .outer 0, .inner 0,
        .expire, .actor 0, .actor 0, .actor 0, .call, .go false, .actor 0, .go false, .go false, .go false, .inner 0]) rfl,
      by decide, by decide, ?_⟩⟩
  · intro d; simp
  · intro hs
    have := hs.2 [.begin 0, .root 0, .accepted 0, .expired 0, .ret 0 false, .handled 0, .begin 1, .root 1, .accepted 1] [] 1
      rfl (by decide)
    exact absurd this (by decide)
  · intro d; simp

/-- **C98 does not hold after a call whose waiter gave up.** The first call returns nil after the timeout, its message still
counts, so the next call is taken for a nested one and returns nil at once, unhandled, though no timeout concerns it. Or the
last release of the first message falls between the two steps of the next call's `Add`: then `sync.WaitGroup` is reused
before `Wait` has returned, and the process dies. -/
theorem C98_timeout_refuted :
    (∃ h s, sys.Run h s ∧ .timeout 0 ∈ h ∧ .ret 1 true ∈ h ∧ .timeout 1 ∉ h ∧ .handled 1 ∉ h ∧
      (∀ d, .expired d ∉ h ∧ .refused d ∉ h) ∧ ¬ Safe h) ∧
    (∃ h s, sys.Run h s ∧ .timeout 0 ∈ h ∧ .ret 0 true ∈ h ∧ .crash ∈ h ∧ (∀ d, .expired d ∉ h ∧ .refused d ∉ h)) := by
  refine ⟨⟨_, _, Lts.run_of_exec (M := sys)
      (as := [.call, .go false, .go false, .go false, .go false, .go false, .go false, .go false, .outer 0, .inner 0,
        .timeout 0, .outer 0, .go false, .call, .go false, .go false, .go false, .go false]) rfl, by decide, by decide,
      by decide, by decide, ?_, ?_⟩,
    ⟨_, _, Lts.run_of_exec (M := sys)
      (as := [.call, .go false, .go false, .go false, .go false, .go false, .go false, .go false, .outer 0, .inner 0,
        .timeout 0, .outer 0, .go false, .actor 0, .actor 0, .actor 0, .call, .go false, .actor 0, .go false, .go false,
        .go false, .inner 0]) rfl, by decide, by decide, by decide, ?_⟩⟩
  · intro d; simp
  · intro hs
    have := hs.2 [.begin 0, .root 0, .accepted 0, .timeout 0, .ret 0 true, .begin 1, .accepted 1] [] 1 rfl (by decide)
    exact absurd this (by decide)
  · intro d; simp

/-- **C98, partial.** If every call begins only when nothing is left to do from the earlier ones (they may have been
refused, have timed out, or have lost their context), the wrapper can be used for any number of calls: no panic, every call
is a root call, and one that returns nil has its message handled unless its own waiter gave up. -/
theorem C98_patient_partial {h : List Ev} {s : State} (hp : Patient h s) :
    Safe h ∧ ∀ c, .begin c ∈ h → .root c ∈ h :=
  ⟨(patient_inv hp).safe, (patient_inv hp).rt⟩

/-- **C98, partial.** The same if calls begin only after calls that were accepted, did not time out and did not lose their
context; nothing else has to be waited for. -/
theorem C98_smooth_partial {h : List Ev} {s : State} (hr : sys.Run h s) (hm : Smooth h) :
    Safe h ∧ ∀ c, .begin c ∈ h → .root c ∈ h :=
  ⟨(smooth_inv hr hm).safe, (smooth_inv hr hm).rt⟩

/-- **C98, partial: calls return.** In such runs, when nothing is left to do every call has returned. -/
theorem C98_returns_partial {h : List Ev} {s : State} (hp : Patient h s ∨ (sys.Run h s ∧ Smooth h)) (hr : AtRest s) :
    ∀ c, .begin c ∈ h → ∃ ok, .ret c ok ∈ h := by
  have hi : Inv h s := by
    rcases hp with hp | ⟨h1, h2⟩
    · exact patient_inv hp
    · exact smooth_inv h1 h2
  intro c hc
  have hl := hi.beg c hc
  by_cases h1 : c + 1 < s.n
  · exact (hi.old c h1).2
  · have ha := hi.cur c (by omega)
    simp only [At, (rest_over hi hr).1] at ha
    exact ha.1

/-- **C98: a wrapper comes to rest.** Under every schedule, careless or not, `k` calls take at most `21 * k + 1` steps in
all, so that waiting for the rest is possible. -/
theorem C98_rest {as : List Act} {s : State} {h : List Ev} (he : sys.exec sys.init as = some (s, h)) :
    as.length ≤ 21 * as.count .call + 1 := by
  have h1 := phi_exec fin_init he
  have h2 : phi init = 1 := rfl
  rw [show sys.init = init from rfl] at *
  omega

/-! ### Witnesses -/

/-- A run of two whole calls, with two handled messages. -/
example : ∃ h s, sys.Run h s ∧ Smooth h ∧ .ret 0 true ∈ h ∧ .ret 1 true ∈ h ∧ .handled 0 ∈ h ∧ .handled 1 ∈ h := by
  refine ⟨_, _, Lts.run_of_exec (M := sys) (as := whole 0 ++ whole 1) rfl, ?_, by decide, by decide, by decide, by decide⟩
  intro h1 h2 c he d
  have : ∀ e ∈ h1, e ∈ [Ev.begin 0, .root 0, .accepted 0, .handled 0, .ret 0 true, .begin 1, .root 1, .accepted 1, .handled 1,
      .ret 1 true] := by
    intro e hm
    have h3 := List.mem_append_left (.begin c :: h2) hm
    rw [← he] at h3
    exact h3
  refine ⟨fun h => ?_, fun h => ?_, fun h => ?_⟩ <;> simpa using this _ h

theorem patient_exec {h : List Ev} {s : State} (hp : Patient h s) {as : List Act} {s' : State} {k : List Ev}
    (he : sys.exec s as = some (s', k)) (hc : .call ∉ as) : Patient (h ++ k) s' := by
  induction as generalizing h s k with
  | nil => simp [Lts.exec] at he; obtain ⟨rfl, rfl⟩ := he; simpa using hp
  | cons a as ih =>
    simp only [Lts.exec] at he
    split at he
    · cases he
    · rename_i s1 e1 hs
      split at he
      · cases he
      · rename_i s2 e2 he2
        simp only [Option.some.injEq, Prod.mk.injEq] at he
        obtain ⟨rfl, rfl⟩ := he
        have := ih (hp.step hs (by rintro rfl; simp at hc)) he2 (fun h => hc (List.mem_cons_of_mem _ h))
        simpa [List.append_assoc] using this

/-- A refused call, everything comes to rest, and the same wrapper is used again. -/
example : ∃ h s, Patient h s ∧ .refused 0 ∈ h ∧ .begin 1 ∈ h ∧ .handled 1 ∈ h ∧ .ret 1 true ∈ h := by
  have h0 : AtRest init := by
    intro a ha
    cases a <;> simp_all [internal, step, init, stepGo, stepOuter, stepInner, stepActor]
  have p1 : Patient [.begin 0, .root 0] { init with n := 1, pc := .mk 0 } := Patient.init.step (a := .call) rfl (fun _ => h0)
  have p2 := patient_exec p1 (as := [.go false, .go true, .outer 0, .inner 0, .outer 0, .outer 0]) rfl (by decide)
  have p3 := p2.step (a := .call) rfl (fun _ => by
    intro a ha
    cases a with
    | call => exact ha.elim
    | expire => exact ha.elim
    | timeout c => exact ha.elim
    | go r => rfl
    | outer c => rcases c with _ | c <;> rfl
    | inner c => rcases c with _ | c <;> rfl
    | actor c => rcases c with _ | c <;> rfl)
  have p4 := patient_exec p3 (as := (whole 1).tail) rfl (by decide)
  exact ⟨_, _, p4, by decide, by decide, by decide, by decide⟩

end Braid.Reuse
