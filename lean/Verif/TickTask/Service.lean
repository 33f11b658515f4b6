import Verif.Lib.Lts

/-
Model of the timer service, lib/timer/timer.go:86-181: its map of tasks and the calls of `start` and `stop`
it makes. Calls are made one after the other: `StartTask`, `StopTask`, `Stop`, `StartAllTask` and
`StopAllTask` read the map without its lock, so that the Go runtime may end the process if they overlap with
`AddTask` or `RemoveTask`.
-/
namespace Braid.TimerService

/-- timer.go:45-56, what the service depends on. Tasks are numbered; `id` and `isRun` never change. -/
structure Task where
  id : String
  isRun : Bool
deriving DecidableEq

/-- timer.go:10-14 -/
inductive TState
  | init | run | stop
deriving DecidableEq

/-- timer.go:86-94 `taskMap`, and the state of every task. -/
structure State where
  tmap : String → Option Nat
  tst : Nat → TState

/-- The calls. (lib/timer/timer.go:124-181) -/
inductive Op
  /-- `AddTask` (L146-150), `NewTickTask` (L136-144) -/
  | add (t : Nat)
  /-- `RemoveTask` (L152-156) -/
  | remove (id : String)
  /-- `StartTask` (L165-170) -/
  | startTask (id : String)
  /-- `StopTask` (L158-163) -/
  | stopTask (id : String)
  /-- `Stop` (L172-181) -/
  | stop (id : String)
  /-- `StartAllTask` (L124-128); the map is iterated in the given order -/
  | startAll (order : List String)
  /-- `StopAllTask` (L130-134) -/
  | stopAll (order : List String)
deriving DecidableEq

/-- Calls of methods of tasks, and the error of `Stop`. (lib/timer/timer.go:124-181) -/
inductive Ev
  | start (t : Nat)
  | stop (t : Nat)
  | notFound (id : String)
deriving DecidableEq

/-- timer_tick.go:14-26 `start`: what it does to the state of the task. -/
def start (info : Nat → Task) (s : State) (t : Nat) : State :=
  if (info t).isRun = false then s
  else match s.tst t with
    | .run => s
    | _ => { s with tst := upd s.tst t .run }

/-- timer.go:59-67 `stop`; for a task whose goroutine has made its ticker (C62). -/
def stop (info : Nat → Task) (s : State) (t : Nat) : State :=
  if (info t).isRun = false then s
  else match s.tst t with
    | .run => { s with tst := upd s.tst t .stop }
    | _ => s

/-- `StartAllTask`. (lib/timer/timer.go:124-128) -/
def startAll (info : Nat → Task) (s : State) : List String → State × List Ev
  | [] => (s, [])
  | id :: rest =>
    match s.tmap id with
    | none => startAll info s rest
    | some t =>
      let r := startAll info (start info s t) rest
      (r.1, Ev.start t :: r.2)

/-- `StopAllTask`. (lib/timer/timer.go:130-134) -/
def stopAll (info : Nat → Task) (s : State) : List String → State × List Ev
  | [] => (s, [])
  | id :: rest =>
    match s.tmap id with
    | none => stopAll info s rest
    | some t =>
      let r := stopAll info (stop info s t) rest
      (r.1, Ev.stop t :: r.2)

/-- One call. (lib/timer/timer.go:124-181) -/
def step (info : Nat → Task) (s : State) (o : Op) : State × List Ev :=
  match o with
  | .add t => ({ s with tmap := upd s.tmap (info t).id (some t) }, [])
  | .remove id => ({ s with tmap := upd s.tmap id none }, [])
  | .startTask id =>
    match s.tmap id with
    | none => (s, [])
    | some t => (start info s t, [.start t])
  | .stopTask id =>
    match s.tmap id with
    | none => (s, [])
    | some t => (stop info s t, [.stop t])
  | .stop id =>
    match s.tmap id with
    | none => (s, [.notFound id])
    | some t => (stop info s t, [.stop t])
  | .startAll order => startAll info s order
  | .stopAll order => stopAll info s order

/-- timer.go:109-122 `Init`, and fresh tasks. -/
def init : State := ⟨fun _ => none, fun _ => .init⟩

/-- A sequence of calls. (lib/timer/timer.go:124-181) -/
def exec (info : Nat → Task) : State → List Op → State
  | s, [] => s
  | s, o :: os => exec info (step info s o).1 os

end Braid.TimerService
