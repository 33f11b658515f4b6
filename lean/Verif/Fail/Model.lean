import Verif.Lib.Lts
import Verif.Chain.Model

/-
Model of what becomes of the failure of a handler: a `Call` to an actor of the same node
(core/node/system_impl.go:293-345 `localCall`, core/actor/actor_runtime_impl.go:172-190 `Received`, L320-346 the message case
of the actor loop), with the chains of hooks and handlers of `Verif/Chain`.

Any number of calls to any number of actors, each with a wrapper of its own (`Verif/CallTree` has shared wait groups and
nested calls, `Verif/Reuse` wrappers used again). The wait group of such a wrapper is 1 from `Received` to `Done`.

Simplifications: the hooks and the handler of a chain run in one step, so the waiter of a call sets `Err` before or after
them. The mailbox is a list (`Verif/Mpsc`). `Received` refuses at will with any error (`Verif/Actor` has the reasons).
Time is not counted: a timeout may fire and a context may end at any moment.
-/
namespace Braid.Fail

/-- What a handler can read and write in a `*msg.Wrapper` (router/msg/msg.go:20-28): `Err`, and everything else. -/
structure Wrap (E D : Type) where
  err : Option E
  data : D

/-- The chains that the actors have registered (core/actor/actor_runtime_impl.go:81-87: `a.chains`) and the errors of
`localCall` (core/node/system_impl.go:316, 333-336). -/
structure Cfg (E D : Type) where
  chain : Nat → String → Option (Chain.DefaultChain (Wrap E D) E)
  /-- L316 -/
  waitTimeout : E
  /-- L333-336: the error of an ended context, which contains the `Err` of the wrapper if there is one -/
  ctxErr : Option E → E

/-- How the handling of a message ends. (core/actor/actor_runtime_impl.go:329-346) -/
inductive Out (E : Type)
  /-- the chain returned nil -/
  | ok
  /-- the chain returned an error; L340-342: it is logged -/
  | err (e : E)
  /-- L331-333: a hook or the handler panicked -/
  | panic
  /-- L343-345: no chain -/
  | unknown

/-- Where the goroutine that calls is. (core/node/system_impl.go:323-340) -/
inductive CPc (E : Type)
  /-- L323 -/
  | recv
  /-- L329 -/
  | wait
  | returned (r : Option E)

/-- Where the message is. (core/actor/actor_runtime_impl.go:320-346) -/
inductive MPc
  /-- not in a mailbox -/
  | off
  | queued
  /-- L338: about to run the chain -/
  | handling
  /-- L335: about to call `Done` -/
  | release
  | done
deriving DecidableEq

/-- The goroutine that waits for the wait group. (core/node/system_impl.go:300-321) -/
inductive WPc
  /-- L301-318 -/
  | waiting
  /-- L320: about to close `mw.Done` -/
  | close
  | closed
deriving DecidableEq

/-- A call. (core/node/system_impl.go:293-345) -/
structure Call (E D : Type) where
  actor : Nat
  event : String
  w : Wrap E D
  c : CPc E
  m : MPc
  wt : WPc

/-- The calls, and for each actor its mailbox and the message it is at. (core/node/system_impl.go:24-42, core/actor/actor_runtime_impl.go:25-42) -/
structure State (E D : Type) where
  n : Nat
  call : Nat → Option (Call E D)
  queue : Nat → List Nat
  busy : Nat → Option Nat

/-- What is seen. (core/node/system_impl.go:293-345) -/
inductive Ev (E D : Type)
  /-- call `c` to actor `a` begins with wrapper `w` -/
  | begin (c a : Nat) (event : String) (w : Wrap E D)
  /-- `Received` refused the message -/
  | refused (c : Nat) (e : E)
  | accepted (c : Nat)
  /-- the handling of the message has ended; `w`: its wrapper then -/
  | handled (c : Nat) (o : Out E) (w : Wrap E D)
  /-- the waiter gave up -/
  | timeout (c : Nat)
  /-- the caller has seen that its context has ended -/
  | ctxEnded (c : Nat)
  /-- `Call` returned `r` -/
  | ret (c : Nat) (r : Option E)

/-- Who takes the next step. (core/node/system_impl.go:293-345, core/actor/actor_runtime_impl.go:320-346) -/
inductive Act (E D : Type)
  | begin (a : Nat) (event : String) (w : Wrap E D)
  /-- `refuse`: the error of `Received` -/
  | recv (c : Nat) (refuse : Option E)
  /-- actor `a` takes a message -/
  | take (a : Nat)
  /-- actor `a` runs the chain of the message -/
  | run (a : Nat)
  /-- actor `a` calls `Done` -/
  | release (a : Nat)
  /-- the waiter of `c`; `timeout`: L312 -/
  | waiter (c : Nat) (timeout : Bool)
  /-- the caller: L330 -/
  | ret (c : Nat)
  /-- the caller: L332 -/
  | ctxEnd (c : Nat)

variable {E D : Type}

/-- No call. (core/node/system_impl.go:47-56) -/
def init : State E D := ⟨0, fun _ => none, fun _ => [], fun _ => none⟩

/-- core/actor/actor_runtime_impl.go:338-345: looks up the chain and runs it. What a panicking chain had written into the
wrapper stays there. -/
def handle (cfg : Cfg E D) (a : Nat) (event : String) (w : Wrap E D) : Wrap E D × Out E :=
  match cfg.chain a event with
  | none => (w, .unknown)
  | some ch =>
    match Chain.execute ch w with
    | (w1, _, .ok) => (w1, .ok)
    | (w1, _, .err e) => (w1, .err e)
    | (w1, _, .panic) => (w1, .panic)

/-- Stores a call. (core/node/system_impl.go:293-345) -/
def setCall (s : State E D) (c : Nat) (x : Call E D) : State E D := { s with call := upd s.call c (some x) }

/-- All steps. (core/node/system_impl.go:293-345, core/actor/actor_runtime_impl.go:172-190, 320-346) -/
def step (cfg : Cfg E D) (s : State E D) : Act E D → Option (State E D × List (Ev E D))
  | .begin a event w => -- L295-321: the count of the fresh group is 0, so the call is a root
    some ({ setCall s s.n ⟨a, event, w, .recv, .off, .waiting⟩ with n := s.n + 1 }, [.begin s.n a event w])
  | .recv c refuse =>
    match s.call c with
    | some x =>
      match x.c with
      | .recv =>
        match refuse with
        -- L323-326: `ready` is closed, the waiter finds a group of 0 and ends by itself; nobody waits for it
        | some e => some (setCall s c { x with c := .returned (some e), wt := .closed }, [.refused c e, .ret c (some e)])
        | none => some ({ setCall s c { x with c := .wait, m := .queued } with
            queue := upd s.queue x.actor (s.queue x.actor ++ [c]) }, [.accepted c])
      | _ => none
    | none => none
  | .take a => -- actor_runtime_impl.go:320-321
    match s.busy a, s.queue a with
    | none, c :: q =>
      match s.call c with
      | some x => some ({ setCall s c { x with m := .handling } with queue := upd s.queue a q, busy := upd s.busy a (some c) }, [])
      | none => none
    | _, _ => none
  | .run a => -- actor_runtime_impl.go:329-346
    match s.busy a with
    | some c =>
      match s.call c with
      | some x =>
        if x.m = .handling then
          let (w, o) := handle cfg a x.event x.w
          some (setCall s c { x with w, m := .release }, [.handled c o w])
        else none
      | none => none
    | none => none
  | .release a => -- L335
    match s.busy a with
    | some c =>
      match s.call c with
      | some x =>
        if x.m = .release then some ({ setCall s c { x with m := .done } with busy := upd s.busy a none }, []) else none
      | none => none
    | none => none
  | .waiter c timeout =>
    match s.call c with
    | some x =>
      match x.wt with
      | .waiting =>
        if x.m = .off then none -- L301: `ready` is not closed
        else if timeout then -- L312-317
          some (setCall s c { x with wt := .close, w := { x.w with err := x.w.err.or (some cfg.waitTimeout) } }, [.timeout c])
        else if x.m = .done then some (setCall s c { x with wt := .close }, []) -- L310
        else none
      | .close => some (setCall s c { x with wt := .closed }, []) -- L320
      | .closed => none
    | none => none
  | .ret c =>
    match s.call c with
    | some x =>
      match x.c, x.wt with
      | .wait, .closed => some (setCall s c { x with c := .returned none }, [.ret c none]) -- L330-331
      | _, _ => none
    | none => none
  | .ctxEnd c =>
    match s.call c with
    | some x =>
      match x.c with
      | .wait => -- L332-339
        let e := cfg.ctxErr x.w.err
        some (setCall s c { x with c := .returned (some e), w := { x.w with err := some e } }, [.ctxEnded c, .ret c (some e)])
      | _ => none
    | none => none

/-- Calls within a node. (core/node/system_impl.go:293-345) -/
def sys (cfg : Cfg E D) : Lts (State E D) (Act E D) (Ev E D) := ⟨init, step cfg⟩

end Braid.Fail
