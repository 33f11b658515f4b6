import Verif.Race.Spec
import Verif.Timer.Model

/-
The plain variables of the timers of an actor and who uses them.
-/
namespace Braid.Race
open Braid

/-- The plain fields of `TimerInfo` that are used after it was made and change (`active` and `nextTick` are atomic; `dueTime`,
`callback` and `args` do not change). (core/actor/actor_timer.go:10-19) -/
inductive TimerVar
  /-- `interval` of a timer -/
  | interval (t : Nat)
  /-- `ticker` of a timer, the pointer -/
  | ticker (t : Nat)
deriving DecidableEq

/-- The goroutines that use timers. (core/actor/actor_runtime_impl.go:95-137; core/actor/actor_timer.go:21-48) -/
inductive TimerWho
  | user (u : Nat)
  /-- the goroutine of a timer -/
  | gor (t : Nat)
  /-- the rest: the loop, which does not use the fields, and the runtime of Go -/
  | other
deriving DecidableEq

/-- Whose action it is. (core/actor/actor_runtime_impl.go:95-137; core/actor/actor_timer.go:21-48) -/
def timerWho : Timer.Act → TimerWho
  | .g t _ => .gor t
  | .stop u _ => .user u
  | .reset u _ _ => .user u
  | .usr u => .user u
  | _ => .other

/-- Which plain variables an action uses. What `NewTimerInfo` writes is not listed: nobody else has the timer yet.
(core/actor/actor_runtime_impl.go:113: `interval` and `ticker`, L117: `ticker`; core/actor/actor_timer.go:26: `ticker`,
L34-41 and L44: `interval`, L46: both) -/
def timerAcc (s : Timer.State) : Timer.Act → List (Acc TimerVar)
  | .g t _ =>
    match (s.tm t).g with
    | .mk => if (s.tm t).interval ≤ 0 then [⟨.interval t, false⟩] else [⟨.interval t, false⟩, ⟨.ticker t, true⟩]
    | .sel => [⟨.ticker t, false⟩]
    | _ => []
  | .usr u =>
    match s.usr u with
    | .stop3 t => [⟨.ticker t, false⟩]
    | .reset t d =>
      if d > 0 ∧ (s.tm t).interval ≠ d then [⟨.interval t, false⟩, ⟨.interval t, true⟩] else [⟨.interval t, false⟩]
    | .reset2 t => [⟨.interval t, false⟩]
    | .reset3 t => [⟨.ticker t, false⟩, ⟨.interval t, false⟩]
    | _ => []
  | _ => []

end Braid.Race
