/-
Timing of the shutdown (C67): `WaitClose`, core/node/node_process_impl.go:59-94, and `NormalSystem.Exit`,
core/node/system_impl.go:467-492. Times are milliseconds after the signal; `none` is never. Steps that do not
wait for anything take no time.
-/
namespace Braid.Shutdown

/-- How long what the shutdown waits for takes. (core/node/node_process_impl.go:59-94) -/
structure Load where
  /-- `acceptor.Exit()`, that is `GracefulStop` (system_impl.go:471, lib/grpc/server.go:98): until all pending
  remote calls have returned; 0 without an acceptor -/
  acc : Option Nat
  /-- `addressbook.Clear` (L487), without a deadline -/
  clear : Option Nat
  /-- `a.Exit()` of each actor (L482) -/
  exits : List (Option Nat)

/-- node_process_impl.go:67: the timeout, which runs from before `pn.sys.Exit` on. -/
def deadline : Nat := 30000

/-- The later of two moments. (core/node/node_process_impl.go:59-94) -/
def later : Option Nat → Option Nat → Option Nat
  | some a, some b => some (max a b)
  | _, _ => none

/-- The moment `pn.sys.Exit` returns (L71): the acceptor is closed, then the actors are asked to exit in
goroutines of their own, then the address book is cleared. -/
def exitReturns (l : Load) : Option Nat :=
  match l.acc, l.clear with
  | some a, some c => some (a + c)
  | _, _ => none

/-- The moment the last actor has exited; the actors are asked when the acceptor is closed.
(core/node/system_impl.go:467-492) -/
def actorsGone (l : Load) : Option Nat :=
  match l.acc with
  | none => none
  | some a => l.exits.foldl (fun t e => later t (e.map (a + ·))) (some a)

/-- The moment `WaitClose` returns (L83-88), and whether it reports a graceful shutdown. It waits in `select`
from `exitReturns` on; if both channels are ready either may be chosen, here the first. -/
def waitClose (l : Load) : Option (Nat × Bool) :=
  match exitReturns l with
  | none => none
  | some t =>
    match later (some t) (actorsGone l) with
    | none => some (max t deadline, false)
    | some g => if g ≤ max t deadline then some (g, true) else some (max t deadline, false)

end Braid.Shutdown
