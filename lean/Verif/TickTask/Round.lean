/-
Model of one round of a tick task: the closure `handler` in `startTickTask`, lib/timer/timer_tick.go:51-78.
-/
namespace Braid.TickRound

/-- What a hook does when it is called: it gets `IsEnd` of the task's context and leaves a new value of it,
and it may panic. The result of `OnBeforeHandler` and `OnEndHandler` is ignored (L63, L76).
(lib/timer/timer_tick.go:50-94) -/
structure Hook where
  run : Bool → Bool
  panics : Bool → Bool

/-- How a call of the task's handler ends. (lib/timer/timer_tick.go:50-94) -/
inductive Res
  | ok | err | panic
deriving DecidableEq

/-- The task's handler. (lib/timer/timer_tick.go:50-94) -/
structure Handler where
  run : Bool → Bool
  res : Bool → Res

/-- timer.go:86-94 `TimerService`, the hooks; `none` is nil. -/
structure Service where
  before : Option Hook
  exc : Option Hook
  fin : Option Hook

/-- What happens in a round. (lib/timer/timer_tick.go:50-94) -/
inductive Call
  | before
  | handler
  /-- `ExceptionHandler`, with the error the handler returned -/
  | excErr
  | fin
  /-- `ExceptionHandler`, with a recovered panic -/
  | excPanic
  /-- `startTickTask` is called again, L59 -/
  | restart
  /-- the process ends -/
  | crash
deriving DecidableEq

/-- What running a piece of the round gives. (lib/timer/timer_tick.go:50-94) -/
structure Out where
  isEnd : Bool
  calls : List Call
  panicked : Bool

/-- L62-64, L70-72, L75-77: a hook is called if the service and the hook are there. -/
def hook (h : Option Hook) (c : Call) (isEnd : Bool) : Out :=
  match h with
  | none => ⟨isEnd, [], false⟩
  | some k => ⟨k.run isEnd, [c], k.panics isEnd⟩

/-- Continues unless there was a panic. (lib/timer/timer_tick.go:50-94) -/
def Out.next (o : Out) (f : Bool → Out) : Out :=
  if o.panicked then o
  else { f o.isEnd with calls := o.calls ++ (f o.isEnd).calls }

/-- L66-73: the handler, and `ExceptionHandler` if it returned an error. -/
def handle (exc : Option Hook) (hd : Handler) (isEnd : Bool) : Out :=
  if isEnd then ⟨isEnd, [], false⟩
  else match hd.res isEnd with
    | .ok => ⟨hd.run isEnd, [.handler], false⟩
    | .panic => ⟨hd.run isEnd, [.handler], true⟩
    | .err => Out.next ⟨hd.run isEnd, [.handler], false⟩ (hook exc .excErr)

/-- L62-77. -/
def body (svc : Option Service) (hd : Handler) (isEnd : Bool) : Out :=
  ((hook (svc.bind (·.before)) .before isEnd).next (handle (svc.bind (·.exc)) hd)).next
    (hook (svc.bind (·.fin)) .fin)

/-- L52-61: the deferred function. `task.taskService.ExceptionHandler` is read without a check for nil, and
nothing recovers a panic in it. -/
def recover (svc : Option Service) (o : Out) : Out :=
  if o.panicked then
    match svc with
    | none => ⟨o.isEnd, o.calls ++ [.crash], true⟩
    | some v =>
      let e := hook v.exc .excPanic o.isEnd
      if e.panicked then ⟨e.isEnd, o.calls ++ e.calls ++ [.crash], true⟩
      else ⟨e.isEnd, o.calls ++ e.calls ++ [.restart], false⟩
  else o

/-- L51-78: a round. -/
def round (svc : Option Service) (hd : Handler) (isEnd : Bool) : Out := recover svc (body svc hd isEnd)

/-- The rounds of one goroutine (L81-85): each one is called with the context the previous one left. Stops
when the process does. The hooks may be different things in each round. (lib/timer/timer_tick.go:50-94) -/
def rounds : List (Option Service × Handler) → Bool → List Call
  | [], _ => []
  | (svc, hd) :: rest, isEnd =>
    let o := round svc hd isEnd
    if o.panicked then o.calls else o.calls ++ rounds rest o.isEnd

end Braid.TickRound
