import Verif.Lib.Lts

/-
Model of the tick tasks of `lib/timer/timer_tick.go` and `lib/timer/timer.go`: one task, any number of
goroutines that call `start` and `stop` on it (through the service), the goroutines that run `dofunc`,
and the tickers they make.

There is no clock: a delay may end and a ticker may fire at any moment, which includes all timings.
Plain variables (`State`, `TimeTicker`) are read and written in single steps of an interleaving
semantics; the code reads and writes them without a lock, except that `start` holds `mutex`.
-/
namespace Braid.TickTask

/-- What a task is made with (`NewTickTimer`, timer_tick.go:33-48), as far as control flow depends on it. -/
structure Cfg where
  /-- `isRun` -/
  isRun : Bool
  /-- `DueTime > 0` -/
  delay : Bool
  /-- `Interval > 0`; `time.NewTicker` panics otherwise -/
  goodInterval : Bool
  /-- `taskService != nil` (`SetTimerService`, timer.go:77-79) -/
  service : Bool
deriving DecidableEq

/-- timer.go:10-14 -/
inductive TState
  | init | run | stop
deriving DecidableEq

/-- Where a goroutine that runs `dofunc` (timer_tick.go:79-86) is. -/
inductive LPc
  /-- not there -/
  | off
  /-- L80: about to make a ticker -/
  | make
  /-- L62-66: in a round, before the handler is called -/
  | pre
  /-- L67: the handler runs -/
  | run
  /-- L69-77: in a round, after the handler -/
  | post
  /-- L53-59: in the deferred function, recovered from a panic -/
  | recover
  /-- L83: about to read `task.TimeTicker` -/
  | read
  /-- L83: waiting for a tick of ticker `k` -/
  | recv (k : Nat)
deriving DecidableEq

/-- Where a goroutine that calls `start` or `stop` is. (lib/timer/timer_tick.go:14-26; lib/timer/timer.go:59-67) -/
inductive CPc
  | idle
  /-- `start`, L19: about to lock -/
  | lock
  /-- L22: about to read `State` -/
  | check
  /-- L23: about to set `State` -/
  | set
  /-- L24: about to call `startTickTask` -/
  | spawn
  /-- L25: about to unlock and return -/
  | unlock (eff : Bool)
  /-- `stop`, timer.go:63: about to read `State` -/
  | scheck
  /-- L64: about to stop the ticker -/
  | sticker
  /-- L65: about to set `State` -/
  | sset
deriving DecidableEq

/-- A `time.Ticker`: whether it was stopped and whether a tick is in its channel (capacity 1; `Stop`
does not empty it, go 1.22). (lib/timer/timer_tick.go:50-94) -/
structure Tk where
  stopped : Bool
  full : Bool
deriving DecidableEq

/-- timer.go:45-56 `TimerInfo`, and the goroutines. -/
structure State where
  tstate : TState
  mutex : Bool
  /-- `TimeTicker` -/
  ticker : Option Nat
  tk : Nat → Tk
  ntk : Nat
  /-- timers of `time.AfterFunc` (L89) that have not fired -/
  delayed : Nat
  loop : Nat → LPc
  nloop : Nat
  cl : Nat → CPc
  crashed : Bool

/-- Observable events. (lib/timer/timer_tick.go:14-94, lib/timer/timer.go:59-67) -/
inductive Ev
  /-- `start` has called `startTickTask` -/
  | started (p : Nat)
  | startRet (p : Nat)
  | stopCall (p : Nat)
  /-- `stop` returns; `eff`: it found the task running -/
  | stopRet (p : Nat) (eff : Bool)
  /-- the process crashes in `stop` -/
  | stopCrash (p : Nat)
  /-- goroutine `l` calls the handler -/
  | hstart (l : Nat)
  /-- the handler called by `l` returns or panics -/
  | hend (l : Nat)
  /-- a hook or the handler called by `l` has panicked -/
  | panic (l : Nat)
  /-- the process crashes in goroutine `l` -/
  | crash (l : Nat)
deriving DecidableEq

/-- Who takes the next step. (lib/timer/timer_tick.go:14-94, lib/timer/timer.go:59-67) -/
inductive Act
  | callStart (p : Nat)
  | callStop (p : Nat)
  /-- goroutine `p` in `start` or `stop` makes its next step -/
  | client (p : Nat)
  /-- a delay ends -/
  | due
  /-- ticker `k` fires -/
  | fire (k : Nat)
  /-- goroutine `l` makes its next step; `bad`: what it calls panics; `skip`: `IsEnd` is set -/
  | loop (l : Nat) (bad skip : Bool)
deriving DecidableEq

/-- L50-94 `startTickTask`: starts a goroutine that runs `dofunc`, now or after the delay.
(lib/timer/timer_tick.go:50-94) -/
def spawn (c : Cfg) (s : State) : State :=
  if c.delay then { s with delayed := s.delayed + 1 }
  else { s with loop := upd s.loop s.nloop .make, nloop := s.nloop + 1 }

/-- One step of `start` (timer_tick.go:14-26) or `stop` (timer.go:59-67). -/
def client (c : Cfg) (s : State) (p : Nat) : Option (State × List Ev) :=
  match s.cl p with
  | .idle => none
  | .lock => if s.mutex then none else some ({ s with mutex := true, cl := upd s.cl p .check }, [])
  | .check =>
    match s.tstate with
    | .run => some ({ s with cl := upd s.cl p (.unlock false) }, [])
    | _ => some ({ s with cl := upd s.cl p .set }, [])
  | .set => some ({ s with tstate := .run, cl := upd s.cl p .spawn }, [])
  | .spawn => some ({ spawn c s with cl := upd s.cl p (.unlock true) }, [.started p])
  | .unlock _ => some ({ s with mutex := false, cl := upd s.cl p .idle }, [.startRet p])
  | .scheck =>
    match s.tstate with
    | .run => some ({ s with cl := upd s.cl p .sticker }, [])
    | _ => some ({ s with cl := upd s.cl p .idle }, [.stopRet p false])
  | .sticker =>
    match s.ticker with
    | none => some ({ s with crashed := true }, [.stopCrash p])
    | some k => some ({ s with tk := upd s.tk k { s.tk k with stopped := true }, cl := upd s.cl p .sset }, [])
  | .sset => some ({ s with tstate := .stop, cl := upd s.cl p .idle }, [.stopRet p true])

/-- One step of `dofunc` and of the round it calls (timer_tick.go:51-86). In a round only the calls of
the handler are told apart from the rest (`Round.lean` has the whole round). -/
def loopStep (c : Cfg) (s : State) (l : Nat) (bad skip : Bool) : Option (State × List Ev) :=
  match s.loop l with
  | .off => none
  | .make =>
    if c.goodInterval then
      some ({ s with ticker := some s.ntk, tk := upd s.tk s.ntk ⟨false, false⟩, ntk := s.ntk + 1,
                     loop := upd s.loop l .pre }, [])
    else some ({ s with crashed := true }, [.crash l])
  | .pre =>
    if bad then some ({ s with loop := upd s.loop l .recover }, [.panic l])
    else if skip then some ({ s with loop := upd s.loop l .post }, [])
    else some ({ s with loop := upd s.loop l .run }, [.hstart l])
  | .run =>
    if bad then some ({ s with loop := upd s.loop l .recover }, [.hend l, .panic l])
    else some ({ s with loop := upd s.loop l .post }, [.hend l])
  | .post =>
    if bad then some ({ s with loop := upd s.loop l .recover }, [.panic l])
    else some ({ s with loop := upd s.loop l .read }, [])
  | .recover =>
    -- L55 reads a field of `task.taskService`; L56 may panic again
    if c.service = false ∨ bad then some ({ s with crashed := true }, [.crash l])
    else some (spawn c { s with loop := upd s.loop l .read }, [])
  | .read =>
    match s.ticker with
    | none => none
    | some k => some ({ s with loop := upd s.loop l (.recv k) }, [])
  | .recv k =>
    if (s.tk k).full then
      some ({ s with tk := upd s.tk k { s.tk k with full := false }, loop := upd s.loop l .pre }, [])
    else none

/-- All steps. Nothing happens after a crash. (lib/timer/timer_tick.go:14-94, lib/timer/timer.go:59-67) -/
def step (c : Cfg) (s : State) (a : Act) : Option (State × List Ev) :=
  if s.crashed then none else
  match a with
  | .callStart p =>
    match s.cl p with
    | .idle =>
      if c.isRun then some ({ s with cl := upd s.cl p .lock }, [])
      else some (s, [.startRet p])
    | _ => none
  | .callStop p =>
    match s.cl p with
    | .idle =>
      if c.isRun then some ({ s with cl := upd s.cl p .scheck }, [.stopCall p])
      else some (s, [.stopCall p, .stopRet p false])
    | _ => none
  | .client p => client c s p
  | .due =>
    if s.delayed = 0 then none
    else some ({ s with delayed := s.delayed - 1, loop := upd s.loop s.nloop .make, nloop := s.nloop + 1 }, [])
  | .fire k =>
    if k < s.ntk ∧ (s.tk k).stopped = false then
      some ({ s with tk := upd s.tk k { s.tk k with full := true } }, [])
    else none
  | .loop l bad skip => loopStep c s l bad skip

/-- timer_tick.go:33-48 `NewTickTimer`. -/
def init : State where
  tstate := .init
  mutex := false
  ticker := none
  tk := fun _ => ⟨false, false⟩
  ntk := 0
  delayed := 0
  loop := fun _ => .off
  nloop := 0
  cl := fun _ => .idle
  crashed := false

/-- The task as a transition system. (lib/timer/timer_tick.go:14-94, lib/timer/timer.go:59-67) -/
def sys (c : Cfg) : Lts State Act Ev := ⟨init, step c⟩

end Braid.TickTask
