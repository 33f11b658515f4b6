import Verif.Race.Spec
import Verif.TickTask.Model

/-
The plain variables of a tick task and who uses them.
-/
namespace Braid.Race
open Braid

/-- The fields of a task that change after it was made. (lib/timer/timer.go:45-56) -/
inductive TVar
  /-- `State` -/
  | state
  /-- `TimeTicker` -/
  | ticker
deriving DecidableEq

/-- The goroutines that use a task. (lib/timer/timer_tick.go:14-94; lib/timer/timer.go:59-67) -/
inductive TWho
  | caller (p : Nat)
  | clock
  | loop (l : Nat)
deriving DecidableEq

/-- Whose action it is. (lib/timer/timer_tick.go:14-94; lib/timer/timer.go:59-67) -/
def twho : TickTask.Act → TWho
  | .callStart p => .caller p
  | .callStop p => .caller p
  | .client p => .caller p
  | .due => .clock
  | .fire _ => .clock
  | .loop l _ _ => .loop l

/-- Which plain variables an action uses. (lib/timer/timer_tick.go:22-23: `State`; lib/timer/timer.go:63-65: `State` and
`TimeTicker`; lib/timer/timer_tick.go:80, L83: `TimeTicker`) -/
def tacc (s : TickTask.State) : TickTask.Act → List (Acc TVar)
  | .client p =>
    match s.cl p with
    | .check => [⟨.state, false⟩]
    | .set => [⟨.state, true⟩]
    | .scheck => [⟨.state, false⟩]
    | .sticker => [⟨.ticker, false⟩]
    | .sset => [⟨.state, true⟩]
    | _ => []
  | .loop l _ _ =>
    match s.loop l with
    | .make => [⟨.ticker, true⟩]
    | .read => [⟨.ticker, false⟩]
    | _ => []
  | _ => []

end Braid.Race
