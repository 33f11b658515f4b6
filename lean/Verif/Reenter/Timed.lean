import Verif.Reenter.Spec

/-
Reentrant calls in time: the deadline of the caller's context and the timeout that `Runtime.ReenterCall` computes from it
(core/actor/actor_runtime_impl.go:202-245), on top of `Verif/Reenter/Model.lean`.

Simplifications: time is in milliseconds from an origin, and passes in steps of any length between the steps of the goroutines. The
context of L210 is ended by its timer only; what `cancel` does to it earlier is left out (nobody waits for it).
-/
namespace Braid.Reenter

/-- `context.DeadlineExceeded`. (core/actor/actor_runtime_impl.go:220) -/
def dle : String := "context deadline exceeded"

/-- The calls, the time, and for every call the deadline of `rmw.Ctx`, the end of the timeout of L210, and whether the context of
L210 has ended. (core/actor/actor_runtime_impl.go:202-210) -/
structure TState where
  base : State
  now : Nat
  deadline : Nat → Option Nat
  timeout : Nat → Nat
  subEnded : Nat → Bool

/-- What is seen, with the time. (core/actor/actor_runtime_impl.go:192-278) -/
inductive TEv
  /-- call `c` begins at time `t` with a context that has this deadline -/
  | begun (t c : Nat) (deadline : Option Nat)
  /-- something of `Verif/Reenter/Model.lean` at time `t` -/
  | ev (t : Nat) (e : Ev)
  /-- the context of L210 of call `c` ends at time `t` -/
  | subEnd (t c : Nat)
deriving DecidableEq

/-- core/actor/actor_runtime_impl.go:192-278. -/
inductive TAct
  | begin (e0 : Option String) (r0 : Option Nat) (deadline : Option Nat)
  /-- time passes -/
  | wait (t : Nat)
  /-- the deadline of the context of call `c` has come -/
  | due (c : Nat)
  /-- the end of the timeout of L210 has come -/
  | subDue (c : Nat)
  /-- a step of the goroutines, or the caller cancels a context -/
  | run (a : Act)
deriving DecidableEq

/-- L203-208: `time.Until(deadline)`, or 30 seconds; a deadline in the past gives a timeout that ends at once.
(core/actor/actor_runtime_impl.go:202-210) -/
def timeoutOf (now : Nat) : Option Nat → Nat
  | some d => now + (d - now)
  | none => now + 30 * 1000

/-- A step of the goroutines. (core/actor/actor_runtime_impl.go:192-278) -/
def tlift (s : TState) (a : Act) : Option (TState × List TEv) :=
  (step s.base a).map fun r => ({ s with base := r.1 }, r.2.map (.ev s.now))

/-- The steps. (core/actor/actor_runtime_impl.go:192-278) -/
def tstep (s : TState) : TAct → Option (TState × List TEv)
  | .begin e0 r0 d => -- L202-210
    (tlift s (.begin e0 r0)).map fun r =>
      ({ r.1 with
        deadline := upd s.deadline s.base.n d
        timeout := upd s.timeout s.base.n (timeoutOf s.now d) }, .begun s.now s.base.n d :: r.2)
  | .wait t => some ({ s with now := s.now + t }, [])
  | .due c =>
    match s.deadline c with
    | some d => if d ≤ s.now then tlift s (.ctxEnd c dle) else none
    | none => none
  | .subDue c =>
    if c < s.base.n ∧ s.timeout c ≤ s.now ∧ s.subEnded c = false then
      some ({ s with subEnded := upd s.subEnded c true }, [.subEnd s.now c])
    else none
  | .run a =>
    match a with
    | .begin _ _ => none
    | .ctxEnd c e => if e = dle then none else tlift s (.ctxEnd c e) -- the caller cancels
    | a => tlift s a

/-- Before the first call. (core/actor/actor_runtime_impl.go:52-71) -/
def tinit : TState := ⟨init, 0, fun _ => none, fun _ => 0, fun _ => false⟩

/-- The system. (core/actor/actor_runtime_impl.go:192-278) -/
def tsys : Lts TState TAct TEv := ⟨tinit, tstep⟩

namespace Spec

/-- When a call has to be over: at the deadline of its context, after 30 seconds if there is none. -/
def limit (t : Nat) : Option Nat → Nat
  | some d => d
  | none => t + 30 * 1000

/-- Nothing is left to be done at this moment: no goroutine of the calls can go on, the loop has no result to bring to a future, and
no deadline or timeout that has come is still unnoticed. -/
def Rest (s : TState) : Prop :=
  (∀ a, Internal a → tstep s (.run a) = none) ∧ (∀ c, tstep s (.due c) = none) ∧ ∀ c, tstep s (.subDue c) = none

/-- The full statement of C125: when the limit of a call has come and nothing is left to be done, its future is completed. -/
def InTime : Prop :=
  ∀ h s, tsys.Run h s → Rest s → ∀ t c d, .begun t c d ∈ h → limit t d ≤ s.now → ∃ t' w b, .ev t' (.completed c w b) ∈ h

end Spec
end Braid.Reenter
