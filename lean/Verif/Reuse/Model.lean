import Verif.Lib.Lts

/-
Model of a wrapper that one goroutine uses for one `Call` after the other: `localCall` (core/node/system_impl.go:293-345)
with the field `Done` of the wrapper, which every root call overwrites and every waiter goroutine closes, `Received`
(core/actor/actor_runtime_impl.go:172-190), the end of a handler (L331-336), and the wait group of the wrapper with the check
of `sync.WaitGroup` against reuse.

Simplifications: the actors may handle messages in any order and at any time; handlers make no calls with the wrapper.
`Received` refuses at will, timeouts fire at any moment. `Done` of `sync.WaitGroup` resets the number of waiters and wakes
them in one step. Loads and stores of `mw.Done` are atomic.
-/
namespace Braid.Reuse

/-- The goroutine that makes the calls. The calls are numbered, and so are the channels they make.
(core/node/system_impl.go:293-345) -/
inductive Pc
  | idle
  /-- L298-300: about to make `Done` and to start the waiter -/
  | mk (c : Nat)
  /-- L323, L343 -/
  | recv (c : Nat) (root : Bool)
  /-- actor_runtime_impl.go:186, lib/warpwaitgroup/warpwaitgroup.go:17 -/
  | add1 (c : Nat) (root : Bool)
  /-- lib/warpwaitgroup/warpwaitgroup.go:20 -/
  | add2 (c : Nat) (root : Bool)
  /-- actor_runtime_impl.go:187 -/
  | push (c : Nat) (root : Bool)
  /-- L327 -/
  | ready (c : Nat)
  /-- L330: about to read `mw.Done` -/
  | look (c : Nat)
  /-- L329: at the select, with channel `d` -/
  | wait (c d : Nat)
deriving DecidableEq

/-- The waiter goroutine of a root call. (core/node/system_impl.go:300-321) -/
inductive Outer
  | off
  /-- L301 -/
  | blocked
  /-- L309 -/
  | sel
  /-- L320 -/
  | close
  | ended
deriving DecidableEq

/-- Its inner goroutine. (core/node/system_impl.go:304-307) -/
inductive Inner
  | off
  /-- L305: about to look at the counter -/
  | start
  /-- in `Wait` -/
  | parked
  /-- woken, about to check the counter again -/
  | woke
  /-- `waitCh` is closed -/
  | closed
deriving DecidableEq

/-- A message. (core/actor/actor_runtime_impl.go:320-346) -/
inductive MPc
  | off
  | queued
  | handling
  /-- L335, lib/warpwaitgroup/warpwaitgroup.go:25 -/
  | rel1
  /-- lib/warpwaitgroup/warpwaitgroup.go:26 -/
  | rel2
  | done
deriving DecidableEq

/-- The wrapper, the goroutines and the messages. (core/node/system_impl.go:293-345) -/
structure State where
  /-- calls so far -/
  n : Nat
  pc : Pc
  /-- `mw.Done` -/
  chan : Option Nat
  /-- which channels are closed -/
  isClosed : Nat → Bool
  /-- which `ready` channels are closed -/
  ready : Nat → Bool
  outer : Nat → Outer
  inner : Nat → Inner
  msg : Nat → MPc
  /-- lib/warpwaitgroup/warpwaitgroup.go:12 -/
  cnt : Int
  /-- lib/warpwaitgroup/warpwaitgroup.go:10 -/
  wg : Int
  crashed : Bool

/-- What is seen of a run. (core/node/system_impl.go:293-345) -/
inductive Ev
  | begin (c : Nat)
  /-- the counter was 0 -/
  | root (c : Nat)
  | accepted (c : Nat)
  | handled (c : Nat)
  | refused (c : Nat)
  /-- the waiter of `c` gives up -/
  | timeout (c : Nat)
  /-- the context of the wrapper ends -/
  | expired (c : Nat)
  /-- `ok`: nil -/
  | ret (c : Nat) (ok : Bool)
  | crash
deriving DecidableEq

/-- Who takes the next step. (core/node/system_impl.go:293-345) -/
inductive Act
  | call
  /-- the caller; `refuse`: `Received` returns an error -/
  | go (refuse : Bool)
  | expire
  | outer (c : Nat)
  | timeout (c : Nat)
  | inner (c : Nat)
  /-- the actor of message `c` -/
  | actor (c : Nat)
deriving DecidableEq

/-- A new wrapper. (router/msg/msg.go:47-69) -/
def init : State where
  n := 0
  pc := .idle
  chan := none
  isClosed := fun _ => false
  ready := fun _ => false
  outer := fun _ => .off
  inner := fun _ => .off
  msg := fun _ => .off
  cnt := 0
  wg := 0
  crashed := false

/-- The caller. (core/node/system_impl.go:293-345) -/
def stepGo (s : State) (refuse : Bool) : Option (State × List Ev) :=
  match s.pc with
  | .idle => none
  | .mk c => some ({ s with chan := some c, outer := upd s.outer c .blocked, pc := .recv c true }, [])
  | .recv c root =>
    if refuse then -- L324-325, L343
      some ({ s with ready := if root then upd s.ready c true else s.ready, pc := .idle }, [.refused c, .ret c false])
    else some ({ s with pc := .add1 c root }, [])
  | .add1 c root => some ({ s with cnt := s.cnt + 1, pc := .add2 c root }, [])
  | .add2 c root => some ({ s with wg := s.wg + 1, pc := .push c root }, [])
  | .push c root =>
    if root then some ({ s with msg := upd s.msg c .queued, pc := .ready c }, [.accepted c])
    else some ({ s with msg := upd s.msg c .queued, pc := .idle }, [.accepted c, .ret c true])
  | .ready c => some ({ s with ready := upd s.ready c true, pc := .look c }, [])
  | .look c =>
    match s.chan with
    | some d => some ({ s with pc := .wait c d }, [])
    | none => none
  | .wait c d => if s.isClosed d then some ({ s with pc := .idle }, [.ret c true]) else none

/-- A waiter goroutine. (core/node/system_impl.go:300-321) -/
def stepOuter (s : State) (c : Nat) : Option (State × List Ev) :=
  match s.outer c with
  | .blocked =>
    if s.ready c then some ({ s with outer := upd s.outer c .sel, inner := upd s.inner c .start }, []) else none
  | .sel => if s.inner c = .closed then some ({ s with outer := upd s.outer c .close }, []) else none
  | .close => -- L320: closes what `mw.Done` is now
    match s.chan with
    | some d =>
      if s.isClosed d then some ({ s with crashed := true }, [.crash])
      else some ({ s with isClosed := upd s.isClosed d true, outer := upd s.outer c .ended }, [])
    | none => none
  | _ => none

/-- `Wait` in an inner goroutine. (core/node/system_impl.go:304-307) -/
def stepInner (s : State) (c : Nat) : Option (State × List Ev) :=
  match s.inner c with
  | .start =>
    if s.wg = 0 then some ({ s with inner := upd s.inner c .closed }, [])
    else some ({ s with inner := upd s.inner c .parked }, [])
  | .woke => -- "WaitGroup is reused before previous Wait has returned"
    if s.wg = 0 then some ({ s with inner := upd s.inner c .closed }, [])
    else some ({ s with crashed := true }, [.crash])
  | _ => none

/-- The actor of message `c`. (core/actor/actor_runtime_impl.go:320-346) -/
def stepActor (s : State) (c : Nat) : Option (State × List Ev) :=
  match s.msg c with
  | .queued => some ({ s with msg := upd s.msg c .handling }, [])
  | .handling => some ({ s with msg := upd s.msg c .rel1 }, [.handled c])
  | .rel1 => some ({ s with msg := upd s.msg c .rel2, cnt := s.cnt - 1 }, [])
  | .rel2 => some ({ s with
      msg := upd s.msg c .done
      wg := s.wg - 1
      inner := if s.wg = 1 then fun d => if s.inner d = .parked then .woke else s.inner d else s.inner }, [])
  | _ => none

/-- All steps. (core/node/system_impl.go:293-345) -/
def step (s : State) (a : Act) : Option (State × List Ev) :=
  if s.crashed then none else
  match a with
  | .call => -- L295
    if s.pc = .idle then
      if s.cnt = 0 then some ({ s with n := s.n + 1, pc := .mk s.n }, [.begin s.n, .root s.n])
      else some ({ s with n := s.n + 1, pc := .recv s.n false }, [.begin s.n])
    else none
  | .go refuse => stepGo s refuse
  | .expire => -- L332-339
    match s.pc with
    | .wait c _ => some ({ s with pc := .idle }, [.expired c, .ret c false])
    | _ => none
  | .outer c => stepOuter s c
  | .timeout c => -- L312
    if s.outer c = .sel then some ({ s with outer := upd s.outer c .close }, [.timeout c]) else none
  | .inner c => stepInner s c
  | .actor c => stepActor s c

/-- The system. (core/node/system_impl.go:293-345) -/
def sys : Lts State Act Ev := ⟨init, step⟩

end Braid.Reuse
