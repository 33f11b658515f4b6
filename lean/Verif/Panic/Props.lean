import Verif.Panic.Lemmas

/-
C116: what a panic of a user's function does.
-/
namespace Braid.Panic
variable {σ P : Type}

/-- **C116, exactly when the process ends**: the process has crashed exactly if a callback given to `Then`, or the recovery
function of an actor, panicked. No panic of a handler, of a timer callback, in a reentry action or in a request to the gRPC
server ends it. -/
theorem C116_crash_exact {recovery : P → Fn σ P} {u : σ} {h : List (Ev P)} {s : State σ} (hr : (sys recovery u).Run h s) :
    Ev.crash ∈ h ↔ ∃ v, (∃ n, Ev.ran (.callback n) (.panic v) ∈ h) ∨ ∃ a, Ev.ran (.recoverer a) (.panic v) ∈ h := by
  rw [(inv_run hr).crash]
  constructor
  · rintro ⟨p, v, hb, hm⟩
    cases p <;> first | exact hb.elim | exact ⟨v, .inl ⟨_, hm⟩⟩ | exact ⟨v, .inr ⟨_, hm⟩⟩
  · rintro ⟨v, ⟨n, hm⟩ | ⟨a, hm⟩⟩
    · exact ⟨.callback n, v, trivial, hm⟩
    · exact ⟨.recoverer a, v, trivial, hm⟩

/-- **C116, at once**: the process ends with the panic of a callback given to `Then` or of the recovery function, and
nothing happens any more. -/
theorem C116_last {recovery : P → Fn σ P} {u : σ} {h : List (Ev P)} {s : State σ} (hr : (sys recovery u).Run h s)
    (hc : Ev.crash ∈ h) : ∃ pre p v, h = pre ++ [.ran p (.panic v), .crash] ∧ Ev.crash ∉ pre ∧
      ((∃ n, p = .callback n) ∨ ∃ a, p = .recoverer a) := by
  revert hc
  refine Lts.Run.invariant (P := fun h _ => Ev.crash ∈ h → ∃ pre p v, h = pre ++ [.ran p (.panic v), .crash] ∧
    Ev.crash ∉ pre ∧ ((∃ n, p = .callback n) ∨ ∃ a, p = .recoverer a)) (fun h => (nomatch h)) ?_ hr
  intro h s a s' evs hr' _ hs hc
  have hn : Ev.crash ∉ h := fun hc => by
    have := (inv_run hr').crashed.2 hc
    obtain ⟨a0, _⟩ := adds hs
    rw [this] at a0; cases a0
  rcases List.mem_append.1 hc with hc | hc
  · exact absurd hc hn
  · obtain ⟨pre, p, v, rfl, h1, h2⟩ := crash_step hs hc
    refine ⟨h ++ pre, p, v, by simp, ?_, h2⟩
    rw [List.mem_append]; rintro (h | h)
    · exact hn h
    · exact h1 h

/-- **C116, exactly when a loop ends**: code of a user has ended the loop of an actor exactly if code that runs on that loop
ended its goroutine (`runtime.Goexit`). -/
theorem C116_loop_exact {recovery : P → Fn σ P} {u : σ} {h : List (Ev P)} {s : State σ} (hr : (sys recovery u).Run h s) (a : Nat) :
    Ev.loopEnded a ∈ h ↔ ∃ p, on p = some a ∧ Ev.ran p .goexit ∈ h := (inv_run hr).loop a

/-- **C116, as far as it holds**: with the default recovery function, which only logs, and callbacks of `Then` that do not
panic, the process does not crash, whatever handlers, timer callbacks and requests do; and an actor on whose loop nothing
calls `runtime.Goexit` can always take its next message, run its next timer callback and its next reentry action. The full statement,
`Contained`, has no such conditions and is false (`C116_refuted`). -/
theorem C116_contained_partial {recovery : P → Fn σ P} (hq : Quiet recovery) {u : σ} {h : List (Ev P)} {s : State σ}
    (hr : (sys recovery u).Run h s) (hc : ∀ n v, Ev.ran (.callback n) (.panic v) ∉ h) :
    Ev.crash ∉ h ∧
    ∀ a, (∀ p, on p = some a → Ev.ran p .goexit ∉ h) →
      Ev.loopEnded a ∉ h ∧ (∀ m c, (step recovery s (.msg a m c)).isSome) ∧ (∀ f, (step recovery s (.timer a f)).isSome) ∧
      ∀ r f, (step recovery s (.reenter a r f)).isSome := by
  have i := inv_run hr
  have h1 : Ev.crash ∉ h := by
    rw [C116_crash_exact hr]
    rintro ⟨v, ⟨n, hm⟩ | ⟨a, hm⟩⟩
    · exact hc n v hm
    · exact quiet_run hq hr _ hm
  refine ⟨h1, fun a ha => ?_⟩
  have h2 : Ev.loopEnded a ∉ h := by
    rw [C116_loop_exact hr]
    rintro ⟨p, hp, hm⟩
    exact ha p hp hm
  have h3 : s.crashed = false := by
    cases hs : s.crashed with
    | false => rfl
    | true => exact absurd (i.crashed.1 hs) h1
  have h4 : s.up a = true := by
    cases hs : s.up a with
    | true => rfl
    | false => exact absurd ((i.up a).1 hs) h2
  exact ⟨h2, fun m c => by simp [step, h3, h4], fun f => by simp [step, h3, h4], fun r f => by simp [step, h3, h4]⟩

/-- **C116, callers are released**: with the default recovery function, `Done` is called exactly once for each message that
an actor takes, however the hooks and the handler end: also when they end the goroutine. -/
theorem C116_released {recovery : P → Fn σ P} (hq : Quiet recovery) {u : σ} {h : List (Ev P)} {s : State σ}
    (hr : (sys recovery u).Run h s) (a m : Nat) : h.countP (isDone a m) = h.countP (isTook a m) := counts hq hr a m

/-- **C116, futures and requests get an answer**: a reentry action that returns completes its future, and one that panics
completes it with an error; a request whose handling returns is answered by it, and one that panics is answered with an error. And a
future of a `Then` is completed only if the callback returned. -/
theorem C116_answers {recovery : P → Fn σ P} {u : σ} {h : List (Ev P)} {s : State σ} (hr : (sys recovery u).Run h s) :
    (∀ a r, (Ev.ran (.action a r) .ret ∈ h → Ev.completed r false ∈ h) ∧
      (∀ v, Ev.ran (.action a r) (.panic v) ∈ h → Ev.completed r true ∈ h)) ∧
    (∀ n, (Ev.ran (.rpc n) .ret ∈ h → Ev.replied n true ∈ h) ∧ (∀ v, Ev.ran (.rpc n) (.panic v) ∈ h → Ev.replied n false ∈ h)) ∧
    ∀ n, Ev.completed n false ∈ h → Ev.ran (.callback n) .ret ∈ h ∨ ∃ a, Ev.ran (.action a n) .ret ∈ h :=
  ⟨(inv_run hr).act, (inv_run hr).rpc, (inv_run hr).chain⟩

/-- **C116 is false**, whatever the recovery function: a callback given to `Then` that panics ends the process, at any moment at
which it has not ended; and a handler that calls `runtime.Goexit` ends the loop of its actor, which takes no message after
that, ever, although nobody has called `Exit`. -/
theorem C116_refuted (recovery : P → Fn σ P) (u : σ) :
    (∀ h s, (sys recovery u).Run h s → Ev.crash ∉ h → ∀ n v,
      ∃ s', (sys recovery u).Run (h ++ [Ev.ran (.callback n) (.panic v), .crash]) s') ∧
    (∀ a m, ∃ s, (sys recovery u).Run [Ev.took a m, .ran (.handler a m) .goexit, .done a m, .loopEnded a] s ∧
      ∀ as s' evs, (sys recovery u).exec s as = some (s', evs) → ∀ m', Ev.took a m' ∉ evs) ∧
    ¬ Contained recovery u := by
  have A : ∀ a m, ∃ s, (sys recovery u).Run [Ev.took a m, .ran (.handler a m) .goexit, .done a m, .loopEnded a] s ∧
      s.up a = false := by
    intro a m
    have key : ∃ s, (sys recovery u).exec (sys recovery u).init [.msg a m (some fun s => (s, .goexit))] =
        some (s, [Ev.took a m, .ran (.handler a m) .goexit, .done a m, .loopEnded a]) ∧ s.up a = false := by
      simp [Lts.exec, sys, step, msgCase, deferred, user, andThen, recovering, skip, emit, endLoop]
    obtain ⟨s, hs, hu⟩ := key
    exact ⟨s, Lts.run_of_exec hs, hu⟩
  have B : ∀ as s s' evs a, s.up a = false → (sys recovery u).exec s as = some (s', evs) → ∀ m', Ev.took a m' ∉ evs := by
    intro as
    induction as with
    | nil => intro s s' evs a _ he m'; simp only [Lts.exec, Option.some.injEq, Prod.mk.injEq] at he; simp [← he.2]
    | cons b as ih =>
      intro s s' evs a hu he m'
      simp only [Lts.exec] at he
      split at he
      · cases he
      · rename_i s1 e1 h1
        split at he
        · cases he
        · rename_i s2 e2 h2
          cases he
          rw [List.mem_append]
          rintro (hm | hm)
          · have h1 : step recovery s b = some (s1, e1) := h1
            exact took_up h1 hm hu
          · exact ih s1 s' e2 a (((adds h1).up a).2 (.inl hu)) h2 m' hm
  refine ⟨fun h s hr hc n v => ?_, fun a m => ?_, fun hc => ?_⟩
  · have h3 : s.crashed = false := by
      cases hs : s.crashed with
      | false => rfl
      | true => exact absurd ((inv_run hr).crashed.1 hs) hc
    exact ⟨_, .step (a := .callback n true fun s => (s, .panic v)) hr (by
      simp [sys, step, h3, callbackRun, andThen, user, endGo]; rfl)⟩
  · obtain ⟨s, hr, hu⟩ := A a m
    exact ⟨s, hr, fun as s' evs he => B as s s' evs a hu he⟩
  · obtain ⟨s, hr, _⟩ := A 0 0
    exact (hc _ _ hr).2 0 (by simp)

/-! ## Examples -/

/-- The default recovery function returns. -/
def logs : String → Fn Nat String := fun _ n => (n + 1, .ret)

example : Quiet logs := fun _ _ => rfl

/-- A handler that panics, then one that does not, on the same actor; a request that panics; then a callback that does. -/
def busyRun : List (Act Nat String) :=
  [.msg 1 10 (some fun n => (n, .panic "nil map")), .msg 1 11 (some fun n => (n + 5, .ret)), .msg 1 12 none,
    .timer 1 (fun n => (n, .panic "index")), .rpc 3 (fun n => (n, .panic "nil")), .reenter 1 4 (fun n => (n, .ret)),
    .callback 5 true (fun n => (n, .ret)), .callback 6 true (fun n => (n, .panic "nil map"))]

example : ((sys logs 0).exec (sys logs 0).init busyRun).map (fun r => (r.1.user, r.1.crashed, r.2.length)) = some (7, true, 19) := by
  decide +kernel

/-- The same without the last callback meets the conditions of `C116_contained_partial`. -/
example : ((sys logs 0).exec (sys logs 0).init busyRun.dropLast).map (fun r => (r.1.user, r.1.crashed, r.1.up 1)) = some (7, false, true) := by
  decide +kernel

end Braid.Panic
