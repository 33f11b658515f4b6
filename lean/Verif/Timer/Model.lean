import Verif.Lib.Lts

/-
Model of the actor timers: `OnTimer` and `CancelTimer` (core/actor/actor_runtime_impl.go:95-137), the
timer case of the actor loop (L305-319) and `TimerInfo` (core/actor/actor_timer.go).

Any number of timers of one actor, each with its goroutine, any number of goroutines that call
`CancelTimer`, `Stop` and `Reset`, and the loop. Time is counted in nanoseconds.

A `time.Ticker` (Go 1.22, go.mod:3-5): a channel with room for one tick; the runtime puts a tick into it
every period and drops it if the channel is full; `Stop` stops the runtime but leaves the channel as it
is; `Reset(d)` starts it again with the next tick after `d`; `NewTicker(d)` panics if `d ≤ 0`.

Simplifications: the map `a.timers` only serves `Exit` and is left out. `Reset` stores
`active` and `nextTick` (actor_timer.go:43-44) in one step. The fields `interval` and `ticker` are
read and written as if they were atomic. Panics of callbacks are recovered (L309-313), so a callback
just ends.
-/
namespace Braid.Timer

/-- `time.Duration(x)*time.Millisecond` (L97-98), with the wrap around of 64 bit integers.
(core/actor/actor_runtime_impl.go:97-98) -/
def dur (x : Int) : Int := Int.bmod (x * 1000000) (2 ^ 64)

/-- A `time.Ticker`. (core/actor/actor_timer.go:10-19) -/
structure Tick where
  running : Bool
  period : Int
  /-- when the runtime puts the next tick -/
  next : Int
  /-- a tick is in the channel -/
  chan : Bool
deriving DecidableEq

/-- The goroutine of a timer, L104-123. (core/actor/actor_runtime_impl.go:104-123) -/
inductive GPc
  | off
  /-- L109: waiting until the given time -/
  | due (at_ : Int)
  /-- L110: about to send the first tick -/
  | first
  /-- L113: about to make the ticker -/
  | mk
  /-- L116: at the select -/
  | sel
  /-- L118: about to send a tick -/
  | send
  | ended
deriving DecidableEq

/-- core/actor/actor_timer.go:10-19 `type TimerInfo struct`, with its goroutine. -/
structure T where
  interval : Int
  active : Bool
  ticker : Option Tick
  g : GPc
  /-- `nextTick`, what `NextTrigger` returns (actor_timer.go:58-63) -/
  trigger : Int
deriving DecidableEq

/-- A goroutine inside `Stop` (also called by `CancelTimer`) or `Reset`. (core/actor/actor_timer.go:21-48) -/
inductive UPc
  | idle
  /-- actor_timer.go:22: about to load `active` -/
  | stop (t : Nat)
  /-- L25 -/
  | stop2 (t : Nat)
  /-- L26 -/
  | stop3 (t : Nat)
  /-- L32-41: about to look at the interval -/
  | reset (t : Nat) (d : Int)
  /-- L43 -/
  | reset2 (t : Nat)
  /-- L46 -/
  | reset3 (t : Nat)
deriving DecidableEq

/-- The actor loop. (core/actor/actor_runtime_impl.go:303-319) -/
inductive LPc
  | sel
  /-- received a tick of `t`, about to load `closed` (actor_runtime_impl.go:306) -/
  | tick (t : Nat)
  /-- the callback of `t` runs (L316) -/
  | run (t : Nat)
  /-- something else runs -/
  | busy
deriving DecidableEq

/-- The timers of an actor, callers and the loop. (core/actor/actor_timer.go:10-19, core/actor/actor_runtime_impl.go:25-42) -/
structure State where
  now : Int
  /-- number of timers made so far -/
  n : Nat
  tm : Nat → T
  chan : List Nat
  usr : Nat → UPc
  loop : LPc
  closed : Bool
  shutdown : Bool
  crashed : Bool

/-- What is seen of a run. (core/actor/actor_runtime_impl.go:95-137, 305-319, core/actor/actor_timer.go:21-48) -/
inductive Ev
  /-- `OnTimer(due, interval)` makes timer `t` at time `at_` -/
  | made (t : Nat) (due interval : Int) (at_ : Int)
  /-- a tick of `t` is queued -/
  | queued (t : Nat) (at_ : Int)
  | cbStart (t : Nat)
  | cbEnd (t : Nat)
  | stopCall (u t : Nat)
  | stopRet (u t : Nat) (b : Bool)
  | resetCall (u t : Nat) (d : Int)
  | resetRet (u t : Nat) (b : Bool)
  | shutdown
  /-- goroutine of timer `t` or caller panics -/
  | crash
deriving DecidableEq

/-- Who takes the next step. (core/actor/actor_runtime_impl.go:95-137, 305-319, core/actor/actor_timer.go:21-48) -/
inductive Act
  | onTimer (due interval : Int)
  /-- time goes on by one nanosecond -/
  | pass
  /-- the goroutine of `t`; `stop`: which case of the select -/
  | g (t : Nat) (stop : Bool)
  /-- the runtime puts a tick of `t` -/
  | fire (t : Nat)
  | stop (u t : Nat)
  | reset (u t : Nat) (d : Int)
  | usr (u : Nat)
  | select
  | loop
  | ended
  | busy
  | shutdown
  | close
deriving DecidableEq

/-- An actor without timers. (core/actor/actor_runtime_impl.go:52-71) -/
def init : State where
  now := 0
  n := 0
  tm := fun _ => ⟨0, false, none, .off, 0⟩
  chan := []
  usr := fun _ => .idle
  loop := .sel
  closed := false
  shutdown := false
  crashed := false

/-- Stores a timer. (core/actor/actor_timer.go:10-19) -/
def setT (s : State) (t : Nat) (x : T) : State := { s with tm := upd s.tm t x }
/-- Moves a caller on. (core/actor/actor_timer.go:21-48) -/
def setU (s : State) (u : Nat) (x : UPc) : State := { s with usr := upd s.usr u x }

/-- L104-123: the goroutine of timer `t`. (core/actor/actor_runtime_impl.go:68-123) -/
def stepG (s : State) (t : Nat) (stop : Bool) : Option (State × List Ev) :=
  let x := s.tm t
  match x.g with
  | .due a => -- L109
    if a ≤ s.now then some (setT s t { x with g := .first }, []) else none
  | .first => -- L110; capacity of L68
    if s.chan.length < 1024 then
      some ({ setT s t { x with g := .mk } with chan := s.chan ++ [t] }, [.queued t s.now])
    else none
  | .mk => -- L113
    if x.interval ≤ 0 then some ({ s with crashed := true }, [.crash])
    else some (setT s t
      { x with ticker := some ⟨true, x.interval, s.now + x.interval, false⟩, g := .sel }, [])
  | .sel => -- L116
    if stop then
      if s.shutdown then some (setT s t { x with g := .ended }, []) else none -- L119
    else
      match x.ticker with
      | some k =>
        if k.chan then some (setT s t { x with ticker := some { k with chan := false }, g := .send }, [])
        else none -- L117
      | none => none
  | .send => -- L118
    if s.chan.length < 1024 then
      some ({ setT s t { x with g := .sel } with chan := s.chan ++ [t] }, [.queued t s.now])
    else none
  | _ => none

/-- core/actor/actor_timer.go:21-48 `Stop` and `Reset`. -/
def stepU (s : State) (u : Nat) : Option (State × List Ev) :=
  match s.usr u with
  | .stop t => -- L22-24
    if (s.tm t).active then some (setU s u (.stop2 t), [])
    else some (setU s u .idle, [.stopRet u t false])
  | .stop2 t => -- L25
    some (setU (setT s t { s.tm t with active := false }) u (.stop3 t), [])
  | .stop3 t => -- L26-28
    match (s.tm t).ticker with
    | some k => some (setU (setT s t { s.tm t with ticker := some { k with running := false } }) u .idle,
        [.stopRet u t true])
    | none => some ({ s with crashed := true }, [.crash])
  | .reset t d => -- L32-41
    if d > 0 then
      if (s.tm t).interval = d then some (setU s u .idle, [.resetRet u t true])
      else some (setU (setT s t { s.tm t with interval := d }) u (.reset2 t), [])
    else if (s.tm t).interval ≤ 0 then some (setU s u .idle, [.resetRet u t false])
    else some (setU s u (.reset2 t), [])
  | .reset2 t => -- L43-44
    some (setU (setT s t { s.tm t with active := true, trigger := s.now + (s.tm t).interval }) u (.reset3 t), [])
  | .reset3 t => -- L46-47
    match (s.tm t).ticker with
    | some _ => some (setU (setT s t { s.tm t with
          ticker := some ⟨true, (s.tm t).interval, s.now + (s.tm t).interval,
            ((s.tm t).ticker.map Tick.chan).getD false⟩ }) u .idle, [.resetRet u t true])
    | none => some ({ s with crashed := true }, [.crash])
  | .idle => none

/-- core/actor/actor_runtime_impl.go:95-308. -/
def step (s : State) (a : Act) : Option (State × List Ev) :=
  if s.crashed then none else
  match a with
  | .onTimer due interval => -- L95-125, actor_timer.go:69-86
    some ({ setT s s.n ⟨dur interval, true, none, if dur due > 0 then .due (s.now + dur due) else .mk,
        if dur due ≠ 0 then s.now + dur due else s.now + dur interval⟩ with
      n := s.n + 1 }, [.made s.n due interval s.now])
  | .pass => some ({ s with now := s.now + 1 }, [])
  | .g t b => stepG s t b
  | .fire t =>
    match (s.tm t).ticker with
    | some k =>
      if k.running ∧ k.next ≤ s.now then
        some (setT s t { s.tm t with ticker := some { k with next := k.next + k.period, chan := true } }, [])
      else none
    | none => none
  | .stop u t =>
    match s.usr u with
    | .idle => if t < s.n then some (setU s u (.stop t), [.stopCall u t]) else none
    | _ => none
  | .reset u t d =>
    match s.usr u with
    | .idle => if t < s.n then some (setU s u (.reset t d), [.resetCall u t d]) else none
    | _ => none
  | .usr u => stepU s u
  | .select => -- actor_runtime_impl.go:305
    match s.loop, s.chan with
    | .sel, t :: r => some ({ s with chan := r, loop := .tick t }, [])
    | _, _ => none
  | .loop =>
    match s.loop with
    | .tick t => -- L306-308
      if s.closed then some ({ s with loop := .sel }, [])
      else some ({ s with loop := .run t }, [.cbStart t])
    | _ => none
  | .ended =>
    match s.loop with
    | .run t => some ({ s with loop := .sel }, [.cbEnd t])
    | .busy => some ({ s with loop := .sel }, [])
    | _ => none
  | .busy =>
    match s.loop with
    | .sel => some ({ s with loop := .busy }, [])
    | _ => none
  | .shutdown => if s.shutdown then none else some ({ s with shutdown := true }, [.shutdown])
  | .close => if s.shutdown then some ({ s with closed := true }, []) else none

/-- The system. (core/actor/actor_runtime_impl.go:95-137, 305-319, core/actor/actor_timer.go:21-48) -/
def sys : Lts State Act Ev := ⟨init, step⟩

/-! ### `TimerInfo` called from one goroutine -/

/-- core/actor/actor_timer.go:21-29 `Stop`; `none`: nil pointer dereference. -/
def stopT (x : T) : Option (T × Bool) :=
  if x.active then
    match x.ticker with
    | some k => some ({ x with active := false, ticker := some { k with running := false } }, true)
    | none => none
  else some (x, false)

/-- core/actor/actor_timer.go:31-48 `Reset` at time `now`. -/
def resetT (now : Int) (x : T) (d : Int) : Option (T × Bool) :=
  if d > 0 ∧ x.interval = d then some (x, true)
  else
    let i := if d > 0 then d else x.interval
    if i ≤ 0 then some ({ x with interval := i }, false)
    else
      match x.ticker with
      | some k => some ({ x with
          interval := i, active := true, ticker := some ⟨true, i, now + i, k.chan⟩, trigger := now + i }, true)
      | none => none

end Braid.Timer
