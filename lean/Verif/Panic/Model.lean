import Verif.Lib.Lts

/-
Model of what a panic does: Go's `panic`, `recover`, deferred functions and `runtime.Goexit`, and the places where braid runs
code of its users: the cases of the actor loop (core/actor/actor_runtime_impl.go:303-363), the callbacks of futures
(core/actor/actor_reenter_impl.go:23-57) and the handler of the gRPC server (core/node/system_acceptor.go:53-83).

Any number of actors, futures and requests. The functions of the users do what they like, differently each time.

Simplifications: a case of the loop, a callback and a request run in one step. What else these functions do is in
`Verif/Actor`, `Verif/Reenter`, `Verif/Future` and `Verif/Server`. Tick tasks, which have a `recover` of their own, are in
`Verif/TickTask`. Which goroutine gets to run is left open.
-/
namespace Braid.Panic

/-- How a Go function ends: it returns, it panics, or it ends its goroutine (`runtime.Goexit`, which `t.FailNow` uses).
(core/actor/actor_runtime_impl.go:309-346) -/
inductive End (P : Type)
  | ret
  | panic (v : P)
  | goexit

/-- A function of a user: `σ` is everything it can change. (core/actor/actor_runtime_impl.go:20) -/
abbrev Fn (σ P : Type) := σ → σ × End P

/-- Where code of a user runs. (core/actor/actor_runtime_impl.go:303-363, core/actor/actor_reenter_impl.go:23-57,
core/node/system_acceptor.go:87-114) -/
inductive Place
  /-- the hooks and the handler of message `m`, on actor `a` -/
  | handler (a m : Nat)
  /-- a timer callback of actor `a` -/
  | timer (a : Nat)
  /-- `a.recovery` -/
  | recoverer (a : Nat)
  /-- the reentry action for future `r`, on actor `a`: no code of a user, but it reads the wrappers that users pass -/
  | action (a r : Nat)
  /-- a callback given to `Then`, which returned future `n` -/
  | callback (n : Nat)
  /-- request `n` to the gRPC server -/
  | rpc (n : Nat)
deriving DecidableEq

/-- What is seen. (core/actor/actor_runtime_impl.go:303-363, core/actor/actor_reenter_impl.go:23-57) -/
inductive Ev (P : Type)
  /-- the code at `p` ended like this -/
  | ran (p : Place) (e : End P)
  /-- an actor has taken message `m` from its mailbox -/
  | took (a m : Nat)
  /-- `Done` was called on the wait group of message `m` -/
  | done (a m : Nat)
  /-- future `n` was completed; `err`: with `Err` set by a recovery -/
  | completed (n : Nat) (err : Bool)
  /-- request `n` was answered; `ok`: not by the recovery -/
  | replied (n : Nat) (ok : Bool)
  /-- the loop of actor `a` has ended without `Exit` -/
  | loopEnded (a : Nat)
  /-- the process has ended: a goroutine did not recover from a panic -/
  | crash

variable {σ P : Type}

/-- A piece of Go code: what it changes, what is seen, how it ends. (core/actor/actor_runtime_impl.go:309-346) -/
abbrev Code (σ P : Type) := σ → σ × List (Ev P) × End P

/-- Calls a function of a user. (core/actor/actor_runtime_impl.go:316) -/
def user (p : Place) (f : Fn σ P) : Code σ P := fun s =>
  match f s with
  | (s1, e) => (s1, [.ran p e], e)

/-- Code of braid that does not panic. (core/actor/actor_runtime_impl.go:335) -/
def emit (ev : Ev P) : Code σ P := fun s => (s, [ev], .ret)

/-- Nothing. (core/actor/actor_runtime_impl.go:344) -/
def skip : Code σ P := fun s => (s, [], .ret)

/-- One statement after another. (core/actor/actor_runtime_impl.go:331-335) -/
def andThen (f g : Code σ P) : Code σ P := fun s =>
  match f s with
  | (s1, ev1, .ret) =>
    match g s1 with
    | (s2, ev2, e) => (s2, ev1 ++ ev2, e)
  | r => r

/-- `func() { defer func() { r := recover(); … }(); body }()` (core/actor/actor_runtime_impl.go:309-319): the deferred
function runs however the body ends, with the value of its panic if it panicked, which is thereby over; an ending goroutine
goes on ending; if the deferred function panics in turn, that panic goes on. -/
def deferred (body : Code σ P) (d : Option P → Code σ P) : Code σ P := fun s =>
  match body s with
  | (s1, ev1, e1) =>
    let r := match e1 with
      | .panic v => some v
      | _ => none
    match d r s1 with
    | (s2, ev2, .ret) =>
      (s2, ev1 ++ ev2, match e1 with
        | .goexit => .goexit
        | _ => .ret)
    | (s2, ev2, e2) => (s2, ev1 ++ ev2, e2)

/-- core/actor/actor_runtime_impl.go:331-333, and 311-313: `if r := recover(); r != nil { a.recovery(r) }`. -/
def recovering (recovery : P → Fn σ P) (a : Nat) : Option P → Code σ P
  | none => skip
  | some v => user (.recoverer a) (recovery v)

/-- core/actor/actor_runtime_impl.go:329-346: the message case. `chain = none`: no chain for the event (L343-345). -/
def msgCase (recovery : P → Fn σ P) (a m : Nat) (chain : Option (Fn σ P)) : Code σ P :=
  deferred
    (match chain with
      | some f => user (.handler a m) f
      | none => skip)
    (fun r => andThen (recovering recovery a r) (emit (.done a m)))

/-- core/actor/actor_runtime_impl.go:309-319: the timer case. -/
def timerCase (recovery : P → Fn σ P) (a : Nat) (f : Fn σ P) : Code σ P :=
  deferred (user (.timer a) f) (recovering recovery a)

/-- core/actor/actor_runtime_impl.go:251-270: the action of a reentrant call. `body`: what L261-267 do to the wrappers. -/
def reenterCase (a r : Nat) (body : Fn σ P) : Code σ P :=
  deferred (andThen (user (.action a r) body) (emit (.completed r false))) -- L261-269
    (fun p => match p with
      | none => skip
      | some _ => emit (.completed r true)) -- L254-258

/-- core/actor/actor_reenter_impl.go:29 and 33-36: a callback of a future, run by a goroutine of its own (L29, L54). `next =
false`: the future was already completed, and the one that `Then` returned never is (L29-30). -/
def callbackRun (n : Nat) (next : Bool) (f : Fn σ P) : Code σ P :=
  andThen (user (.callback n) f) (if next then emit (.completed n false) else skip)

/-- core/node/system_acceptor.go:62-63: the interceptor that recovers, around the handler (L87-114). `ok = true`: `Routing`
itself answered. -/
def rpcRun (n : Nat) (f : Fn σ P) : Code σ P :=
  deferred (andThen (user (.rpc n) f) (emit (.replied n true)))
    (fun p => match p with
      | none => skip
      | some _ => emit (.replied n false)) -- L44-52

/-- The process. (core/actor/actor_runtime_impl.go:25-42) -/
structure State (σ : Type) where
  user : σ
  /-- the loop of the actor is running -/
  up : Nat → Bool
  crashed : Bool

/-- A piece of code of a user is run. (core/actor/actor_runtime_impl.go:303-363) -/
inductive Act (σ P : Type)
  | msg (a m : Nat) (chain : Option (Fn σ P))
  | timer (a : Nat) (f : Fn σ P)
  | reenter (a r : Nat) (body : Fn σ P)
  | callback (n : Nat) (next : Bool) (f : Fn σ P)
  | rpc (n : Nat) (f : Fn σ P)

/-- The end of a round of the loop of actor `a`. (core/actor/actor_runtime_impl.go:303-363: no `recover` around `update`) -/
def endLoop (s : State σ) (a : Nat) : σ × List (Ev P) × End P → State σ × List (Ev P)
  | (u, evs, .ret) => ({ s with user := u }, evs)
  | (u, evs, .panic _) => ({ s with user := u, crashed := true }, evs ++ [.crash])
  | (u, evs, .goexit) => ({ s with user := u, up := upd s.up a false }, evs ++ [.loopEnded a])

/-- The end of a goroutine that runs one function. (core/actor/actor_reenter_impl.go:29, 54) -/
def endGo (s : State σ) : σ × List (Ev P) × End P → State σ × List (Ev P)
  | (u, evs, .panic _) => ({ s with user := u, crashed := true }, evs ++ [.crash])
  | (u, evs, _) => ({ s with user := u }, evs)

/-- All steps. (core/actor/actor_runtime_impl.go:303-363, core/actor/actor_reenter_impl.go:23-57, core/node/system_acceptor.go:87-114) -/
def step (recovery : P → Fn σ P) (s : State σ) : Act σ P → Option (State σ × List (Ev P))
  | .msg a m chain => -- L320-346
    if s.crashed = false ∧ s.up a = true then
      match endLoop s a (msgCase recovery a m chain s.user) with
      | (s', evs) => some (s', .took a m :: evs)
    else none
  | .timer a f => -- L305-319
    if s.crashed = false ∧ s.up a = true then some (endLoop s a (timerCase recovery a f s.user)) else none
  | .reenter a r body => -- L348-352
    if s.crashed = false ∧ s.up a = true then some (endLoop s a (reenterCase a r body s.user)) else none
  | .callback n next f =>
    if s.crashed = false then some (endGo s (callbackRun n next f s.user)) else none
  | .rpc n f =>
    if s.crashed = false then some (endGo s (rpcRun n f s.user)) else none

/-- A process whose actors all run; `recovery` is `a.recovery`, which is `defaultRecovery`
(core/actor/actor_runtime_impl.go:59, 73-75) and cannot be replaced from outside the package. -/
def sys (recovery : P → Fn σ P) (u : σ) : Lts (State σ) (Act σ P) (Ev P) := ⟨⟨u, fun _ => true, false⟩, step recovery⟩

end Braid.Panic
