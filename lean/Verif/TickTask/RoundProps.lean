import Verif.TickTask.RoundSpec

/-
Property C63: the rounds of a tick task.
-/
namespace Braid.TickRound

/-- **C63**, rounds in which nothing panics: the hooks that are due are called, in order, each once, and
nothing else happens. -/
theorem C63_order (v : Service) (hd : Handler) (isEnd : Bool) (hq : Quiet v hd isEnd) :
    (round (some v) hd isEnd).calls = (due v hd isEnd).map (·.1) ∧ (round (some v) hd isEnd).panicked = false := by
  unfold Quiet at hq
  revert hq
  rcases v with ⟨_ | b, _ | x, _ | f⟩ <;> cases isEnd <;>
    (try cases hb0 : b.run false) <;> (try cases hb1 : b.run true) <;> cases hr : hd.res false <;>
    simp_all [round, recover, body, hook, Out.next, handle, due, endAfterBefore]

/-- A task without a service (`AddTask` of a task made by `NewTickTimer`): only the handler is called. -/
theorem C63_no_service (hd : Handler) (isEnd : Bool) (hq : isEnd = false → hd.res false ≠ .panic) :
    (round none hd isEnd).calls = (if isEnd then [] else [.handler]) ∧ (round none hd isEnd).panicked = false := by
  cases isEnd <;> cases hr : hd.res false <;>
    simp_all [round, recover, body, hook, Out.next, handle]

/-- Runs through the hooks that are due until one panics. -/
def upTo : List (Call × Bool) → List Call × Bool
  | [] => ([], false)
  | (c, true) :: _ => ([c], true)
  | (c, false) :: l => (c :: (upTo l).1, (upTo l).2)

theorem upTo_first (pre post : List (Call × Bool)) (c : Call) (h : ∀ x ∈ pre, x.2 = false) :
    upTo (pre ++ (c, true) :: post) = (pre.map (·.1) ++ [c], true) := by
  induction pre with
  | nil => rfl
  | cons x pre ih =>
    obtain ⟨d, b⟩ := x
    obtain rfl : b = false := h (d, b) (by simp)
    simp [upTo, ih (fun y hy => h y (by simp [hy]))]

theorem upTo_pair (c : Call) (b : Bool) (l : List (Call × Bool)) :
    upTo ((c, b) :: l) = if b then ([c], true) else (c :: (upTo l).1, (upTo l).2) := by cases b <;> rfl

theorem body_upTo (v : Service) (hd : Handler) (isEnd : Bool) :
    ((body (some v) hd isEnd).calls, (body (some v) hd isEnd).panicked) = upTo (due v hd isEnd) := by
  rcases v with ⟨_ | b, _ | x, _ | f⟩ <;> cases isEnd <;>
    (try cases hb0 : b.run false) <;> (try cases hb1 : b.run true) <;> cases hr : hd.res false <;>
    simp [body, hook, Out.next, handle, due, endAfterBefore, upTo_pair, upTo, *] <;>
    (repeat' split) <;> simp_all

/-- **C63**, a round with a panic, the part that holds: the hooks that are due are called in order up to the
first that panics; then `ExceptionHandler` gets the panic, if there is one and it does not panic itself, and
the process goes on. What is missing: tasks without a service, and an `ExceptionHandler` that panics. -/
theorem C63_panic_partial (v : Service) (hd : Handler) (isEnd : Bool) (pre post : List (Call × Bool)) (c : Call)
    (hp : due v hd isEnd = pre ++ (c, true) :: post) (hpre : ∀ x ∈ pre, x.2 = false)
    (hx : ∀ k, v.exc = some k → ∀ e, k.panics e = false) :
    (round (some v) hd isEnd).calls =
      pre.map (·.1) ++ c :: (if v.exc.isSome then [Call.excPanic] else []) ++ [Call.restart] ∧
      (round (some v) hd isEnd).panicked = false := by
  have h := body_upTo v hd isEnd
  rw [hp, upTo_first _ _ _ hpre, Prod.mk.injEq] at h
  obtain ⟨h1, h2⟩ := h
  simp only [round, recover, h2, if_true, h1]
  cases hxe : v.exc with
  | none => simp [hook]
  | some k => simp [hook, hx k hxe]

/-- **C63**, when a panic ends the process: exactly if the task has no service, or its `ExceptionHandler`
panics when it is given the panic. -/
theorem C63_crash_iff (svc : Option Service) (hd : Handler) (isEnd : Bool) :
    (round svc hd isEnd).panicked = true ↔
      (body svc hd isEnd).panicked = true ∧
        (svc = none ∨ ∃ v k, svc = some v ∧ v.exc = some k ∧ k.panics (body svc hd isEnd).isEnd = true) := by
  unfold round recover
  cases hb : (body svc hd isEnd).panicked with
  | false => simp [hb]
  | true =>
    cases svc with
    | none => simp
    | some v => cases hx : v.exc with
      | none => simp [hook, hx]
      | some k => cases hk : k.panics (body (some v) hd isEnd).isEnd <;> simp [hook, hx, hk]

/-- A handler that panics. -/
def bad : Handler := ⟨id, fun _ => .panic⟩

/-- **C63** is violated: a panic in the handler of a task that was given to `AddTask` without
`SetTimerService` ends the process. -/
theorem C63_no_service_refuted : (round none bad false).calls = [.handler, .crash] := rfl

/-- **C63** is violated: a panic in `ExceptionHandler` ends the process, whether it was called with an error
or with a panic. -/
theorem C63_exception_refuted :
    (round (some ⟨none, some ⟨id, fun _ => true⟩, none⟩) ⟨id, fun _ => .err⟩ false).calls
      = [.handler, .excErr, .excPanic, .crash] := rfl

theorem hook_isEnd (o : Option Hook) (c : Call) (hc : c ≠ .handler) (h : ∀ k, o = some k → k.run true = true) :
    Call.handler ∉ (hook o c true).calls ∧ (hook o c true).isEnd = true := by
  cases o with
  | none => simp [hook]
  | some k => simp [hook, h k rfl, Ne.symm hc]

/-- What `IsEnd` does over many rounds: nothing resets it, so that when it is set and no hook clears it the
handler is not called in any later round either, although the comment at timer.go:30 promises an effect on
one round only. -/
theorem C63_isEnd_stays (l : List (Option Service × Handler))
    (hk : ∀ x ∈ l, ∀ v, x.1 = some v → ∀ k, v.before = some k ∨ v.exc = some k ∨ v.fin = some k →
      k.run true = true) : Call.handler ∉ rounds l true := by
  induction l with
  | nil => simp [rounds]
  | cons x l ih =>
    obtain ⟨svc, hd⟩ := x
    have hh : Call.handler ∉ (round svc hd true).calls ∧ (round svc hd true).isEnd = true := by
      have hk := hk (svc, hd) (by simp)
      have k1 : ∀ k, svc.bind (·.before) = some k → k.run true = true := by
        intro k h; obtain ⟨v, e, h⟩ := Option.bind_eq_some_iff.1 h; exact hk v e k (Or.inl h)
      have k2 : ∀ v, svc = some v → ∀ k, v.exc = some k → k.run true = true :=
        fun v e k h => hk v e k (Or.inr (Or.inl h))
      have k3 : ∀ k, svc.bind (·.fin) = some k → k.run true = true := by
        intro k h; obtain ⟨v, e, h⟩ := Option.bind_eq_some_iff.1 h; exact hk v e k (Or.inr (Or.inr h))
      have b1 := hook_isEnd (svc.bind (·.before)) .before (by simp) k1
      have b2 : Call.handler ∉ (body svc hd true).calls ∧ (body svc hd true).isEnd = true := by
        have b3 := hook_isEnd (svc.bind (·.fin)) .fin (by simp) k3
        cases hb : (hook (svc.bind (·.before)) .before true).panicked <;>
          simp [body, Out.next, handle, b1, b3, hb]
      unfold round recover
      split
      · cases svc with
        | none => simp [b2]
        | some v =>
          have b3 := hook_isEnd v.exc .excPanic (by simp) (k2 v rfl)
          simp only [b2.2]
          split <;> simp [b2, b3]
      · exact b2
    have ih := ih (fun y hy => hk y (by simp [hy]))
    simp only [rounds]
    split
    · exact hh.1
    · rw [hh.2]; simp [hh.1, ih]

/-- A round with all hooks, a handler that fails, and no panic. -/
example : Quiet ⟨some ⟨id, fun _ => false⟩, some ⟨id, fun _ => false⟩, some ⟨id, fun _ => false⟩⟩
      ⟨id, fun _ => .err⟩ false ∧
    (round (some ⟨some ⟨id, fun _ => false⟩, some ⟨id, fun _ => false⟩, some ⟨id, fun _ => false⟩⟩)
      ⟨id, fun _ => .err⟩ false).calls = [.before, .handler, .excErr, .fin] := by
  refine ⟨?_, rfl⟩
  simp [Quiet, due, endAfterBefore]

/-- A round whose handler panics, which meets the hypotheses of `C63_panic_partial`. -/
example : due ⟨some ⟨id, fun _ => false⟩, some ⟨id, fun _ => false⟩, none⟩ bad false =
      [(.before, false)] ++ (.handler, true) :: [] ∧
    (round (some ⟨some ⟨id, fun _ => false⟩, some ⟨id, fun _ => false⟩, none⟩) bad false).calls =
      [.before, .handler, .excPanic, .restart] := ⟨rfl, rfl⟩

/-- Two rounds in which `IsEnd` was set, with hooks that leave it alone. -/
example : rounds [(some ⟨some ⟨id, fun _ => false⟩, none, none⟩, bad), (none, bad)] true = [.before] := rfl

end Braid.TickRound
