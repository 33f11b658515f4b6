import Verif.TickTask.Spec

/-
Callers of tick tasks that keep to a discipline: one call at a time, a stop only once the goroutine
of the last start has made its ticker, and a start of a stopped task only once that goroutine waits.
-/
namespace Braid.TickTask

/-- The task is at rest: no delay is running and every goroutine waits at a stopped, empty ticker. -/
def AtRest (s : State) : Prop :=
  s.delayed = 0 ∧ ∀ l, s.loop l = .off ∨ ∃ k, s.loop l = .recv k ∧ s.tk k = ⟨true, false⟩

/-- What a disciplined caller waits for before a call. -/
def Allowed (s : State) : Act → Prop
  | .callStart _ => (∀ q, s.cl q = .idle) ∧ (s.tstate = .run ∨ AtRest s)
  | .callStop _ => (∀ q, s.cl q = .idle) ∧ (s.tstate = .run → s.delayed = 0 ∧ ∀ l, s.loop l ≠ .make)
  | _ => True

/-- The executions with disciplined callers. -/
inductive DiscRun (c : Cfg) : List Ev → State → Prop
  | init : DiscRun c [] init
  | step {h s a s' evs} : DiscRun c h s → Allowed s a → step c s a = some (s', evs) →
      DiscRun c (h ++ evs) s'

/-- Handler calls begun since the last effective stop, as long as no effective start came after it. -/
def sinceStop : Option Nat → List Ev → Option Nat
  | x, [] => x
  | x, .stopRet _ true :: h => sinceStop (x.or (some 0)) h
  | _, .started _ :: h => sinceStop none h
  | x, .hstart _ :: h => sinceStop (x.map (· + 1)) h
  | x, _ :: h => sinceStop x h

end Braid.TickTask
