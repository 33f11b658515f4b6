import Verif.Lib.Lts

/-
Model of the span reporter: `lib/tracer/slow_reporter.go`.

Any number of goroutines report spans and close the reporter; one worker takes items from the queue. Each channel
operation, atomic operation and call of the sender is one step.

Simplified: spans are numbers; `Append` to the sender counts as delivery, whether or not it returns an error (which
is only counted, L152-158); the metrics and the gauge `queueLength` are left out. The sampler is `none` if the rate
was not between 0 and 1: `NewProbabilisticSampler` returns nil and an error then, and the error is dropped (L65).
-/
namespace Braid.Reporter

/-- slow_reporter.go:35-39 -/
inductive Item
  | span (x : Nat)
  /-- with the wait group of goroutine `g` -/
  | close (g : Nat)
deriving DecidableEq

/-- The worker, L121-170. (lib/tracer/slow_reporter.go:121-170) -/
inductive Worker
  /-- at the select L133 -/
  | run
  /-- took a span, L141 -/
  | span (x : Nat)
  /-- took a close item, L163 -/
  | close (g : Nat)
  /-- returned, L166 -/
  | fin
deriving DecidableEq

/-- A goroutine in `Close`, L99-115. (lib/tracer/slow_reporter.go:99-115) -/
inductive Pc
  | idle
  /-- L112 -/
  | sending
  /-- L114 -/
  | waiting
  /-- L104 -/
  | sender
deriving DecidableEq

/-- The reporter. (lib/tracer/slow_reporter.go:41-56) -/
structure State where
  queue : List Item
  dropped : Nat
  closed : Bool
  worker : Worker
  pc : Nat → Pc
  /-- the wait group of `g` is done -/
  woken : Nat → Bool
  /-- the process has crashed -/
  dead : Bool

/-- A new reporter. (lib/tracer/slow_reporter.go:59-83) -/
def init : State := ⟨[], 0, false, .run, fun _ => .idle, fun _ => false, false⟩

/-- What is seen of a run. (lib/tracer/slow_reporter.go:86-170) -/
inductive Ev
  /-- `Report` returned; `queued = false`: the span was dropped -/
  | reported (x : Nat) (queued : Bool)
  /-- the span was appended to the sender -/
  | delivered (x : Nat)
  /-- the span was not sampled -/
  | filtered (x : Nat)
  | flush
  /-- `Close` was called -/
  | close (g : Nat)
  /-- `Close` returned -/
  | ret (g : Nat)
  /-- `sender.Close()` -/
  | senderClosed (g : Nat)
  | panic
deriving DecidableEq

/-- lib/tracer/slow_reporter.go:86-166. -/
inductive Act
  | report (x : Nat)
  | close (g : Nat)
  /-- the next step of a goroutine in `Close` -/
  | go (g : Nat)
  /-- the next step of the worker -/
  | work
  /-- the flush timer, L134-135 -/
  | tick

/-- slow_reporter.go:14 -/
def queueSize : Nat := 100

/-- lib/tracer/slow_reporter.go:86-166. -/
def step (sampler : Option (Nat → Bool)) (s : State) (a : Act) : Option (State × List Ev) :=
  if s.dead then none else
  match a with
  | .report x => -- L86-96
    if s.queue.length < queueSize then some ({ s with queue := s.queue ++ [.span x] }, [.reported x true])
    else some ({ s with dropped := s.dropped + 1 }, [.reported x false])
  | .close g => -- L100
    if s.pc g = .idle then
      if s.closed then some (s, [.close g, .ret g])
      else some ({ s with closed := true, pc := upd s.pc g .sending }, [.close g])
    else none
  | .go g =>
    match s.pc g with
    | .idle => none
    | .sending => -- L112
      if s.queue.length < queueSize then
        some ({ s with queue := s.queue ++ [.close g], pc := upd s.pc g .waiting }, [])
      else none
    | .waiting => if s.woken g then some ({ s with pc := upd s.pc g .sender }, []) else none -- L114
    | .sender => some ({ s with pc := upd s.pc g .idle }, [.senderClosed g, .ret g]) -- L104
  | .tick => if s.worker = .run then some (s, [.flush]) else none -- L134
  | .work =>
    match s.worker with
    | .run => -- L136
      match s.queue with
      | [] => none
      | .span x :: q => some ({ s with queue := q, worker := .span x }, [])
      | .close g :: q => some ({ s with queue := q, worker := .close g }, [])
    | .span x => -- L141-161
      match sampler with
      | none => some ({ s with dead := true }, [.panic])
      | some f => some ({ s with worker := .run }, [if f x then .delivered x else .filtered x])
    | .close g => some ({ s with worker := .fin, woken := upd s.woken g true }, [.flush]) -- L163-166
    | .fin => none

/-- The system. (lib/tracer/slow_reporter.go:59-170) -/
def sys (sampler : Option (Nat → Bool)) : Lts State Act Ev := ⟨init, step sampler⟩

end Braid.Reporter
