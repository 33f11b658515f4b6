import Verif.Lib.Lts

/-
Model of synchronous calls on a node: `NormalSystem.localCall` (core/node/system_impl.go:293-345), the
part of `Send` that delivers locally (L400, L408, L417), `handleRemoteCall` (L347-361) with the acceptor
at the other end (core/node/system_acceptor.go:94-114), `Runtime.Received`
(core/actor/actor_runtime_impl.go:172-190), the message case of the actor loop (L320-346) and the wait
groups (lib/warpwaitgroup/warpwaitgroup.go).

Any number of actors, wait groups and goroutines. A handler may make any number of calls and sends, one
after the other, each with any wrapper, hence any wait group: the one of the message it handles, a fresh
one, or somebody else's.

Simplifications: the mailbox is a list (`Verif/Mpsc` and `Verif/Actor` have it operation by operation).
`Received` refuses at will (the two reasons, L174-184, are in `Verif/Actor`). Which actor is called is
chosen freely (routing is in `Verif/System`). Time is not counted: a timeout may fire at any moment.
Every root call waits on a `Done` of its own: a wrapper is not used for a root call before the waiter of an earlier
root call with it has ended (`Verif/Reuse` has what happens otherwise). The panics of a misused `sync.WaitGroup` are
left out. User code may set `mw.Err` but does not reset it to nil.
-/
namespace Braid.CallTree

/-- What a goroutine asks for. (core/node/system_impl.go:197-275, 363-437) -/
inductive Kind
  /-- `Call` to an actor of this node -/
  | call
  /-- `Send` to an actor of this node -/
  | send
  /-- `Call` to an actor of another node -/
  | remote
deriving DecidableEq

/-- A goroutine. (core/actor/actor_runtime_impl.go:320-346, core/node/system_acceptor.go:94-114) -/
inductive Thr
  /-- one of the program's -/
  | ext (n : Nat)
  /-- the loop of an actor while it handles the message of operation `m` -/
  | hnd (m : Nat)
  /-- the acceptor goroutine of the other node that serves the remote call `r` -/
  | acc (r : Nat)
deriving DecidableEq

/-- Where the goroutine that makes the call is. (core/node/system_impl.go:323-349) -/
inductive CPc
  /-- L323, L343: about to call `Received` -/
  | recv
  /-- actor_runtime_impl.go:186, warpwaitgroup.go:17: about to add to the counter -/
  | add1
  /-- warpwaitgroup.go:20: about to add to the `sync.WaitGroup` -/
  | add2
  /-- actor_runtime_impl.go:187 -/
  | push
  /-- L327: about to close `ready` -/
  | ready
  /-- L329: at the select -/
  | wait
  /-- L349: waiting for the other node -/
  | rpc
  /-- returned (`ok`: nil) -/
  | returned (ok : Bool)
deriving DecidableEq

/-- Where the message is. (core/actor/actor_runtime_impl.go:320-346) -/
inductive MPc
  /-- not in a mailbox -/
  | none
  | queued
  /-- actor_runtime_impl.go:338-345 -/
  | handling
  /-- L335, warpwaitgroup.go:25: about to subtract from the counter -/
  | rel1
  /-- L335, warpwaitgroup.go:26: about to subtract from the `sync.WaitGroup` -/
  | rel2
  | done
deriving DecidableEq

/-- The waiter goroutine of a root call (L300-321). (core/node/system_impl.go:300-321) -/
inductive Outer
  /-- not started -/
  | off
  /-- L301 -/
  | blocked
  /-- L309 -/
  | sel
  /-- L320: about to close `Done` -/
  | close
  /-- `Done` is closed -/
  | ended
deriving DecidableEq

/-- The inner waiter goroutine (L304-307). (core/node/system_impl.go:304-307) -/
inductive Inner
  | off
  /-- L305 -/
  | waiting
  /-- `waitCh` is closed -/
  | closed
deriving DecidableEq

/-- One operation: a `Call` or a `Send`, its message and its waiters. (core/node/system_impl.go:197-445) -/
structure Op where
  thr : Thr
  kind : Kind
  /-- the actor -/
  act : Nat
  /-- the wait group in the context of the wrapper -/
  grp : Nat
  /-- the wrapper -/
  wrp : Nat
  /-- L295 -/
  root : Bool
  cpc : CPc
  mpc : MPc
  /-- `ready` is closed -/
  ready : Bool
  outer : Outer
  inner : Inner
deriving DecidableEq

/-- The request of a remote call at the other node. (core/node/system_acceptor.go:94-114) -/
inductive Rpc
  | idle
  | running
  | answered
deriving DecidableEq

/-- core/node/system_impl.go:293-345. -/
structure State where
  /-- number of operations so far -/
  n : Nat
  op : Nat → Op
  /-- the operation a goroutine is in -/
  cur : Thr → Option Nat
  rpc : Nat → Rpc
  /-- warpwaitgroup.go:12 `counter` of each group -/
  cnt : Nat → Int
  /-- warpwaitgroup.go:10 `wg` of each group -/
  wg : Nat → Int
  /-- the mailboxes -/
  queue : Nat → List Nat
  /-- the message an actor is at -/
  busy : Nat → Option Nat
  /-- `mw.Err ≠ nil` of each wrapper -/
  err : Nat → Bool

/-- What is seen of a run. (core/node/system_impl.go:293-361) -/
inductive Ev
  /-- goroutine `t` starts operation `c` with a wrapper whose group is `g` -/
  | begin (c : Nat) (t : Thr) (k : Kind) (g : Nat)
  /-- `c` found the count of its group to be zero -/
  | root (c : Nat)
  /-- the message of `c` is in the mailbox of its actor -/
  | accepted (c : Nat)
  /-- the handler of the message of `c` has ended -/
  | handled (c : Nat)
  /-- the waiter of `c` gave up after `callTimeout` -/
  | timeout (c : Nat)
  /-- the context of `c` ended, or the remote call failed -/
  | expired (c : Nat)
  /-- `c` returned (`ok`: nil); `err`: the `Err` of its wrapper is set -/
  | ret (c : Nat) (ok err : Bool)
deriving DecidableEq

/-- core/node/system_impl.go:293-361. -/
inductive Act
  | begin (t : Thr) (k : Kind) (a g w : Nat)
  /-- the next operation of the goroutine that makes call `c`; `refuse`: `Received` returns an error -/
  | go (c : Nat) (refuse : Bool)
  /-- the context of `c` ends first, or the remote call fails -/
  | expire (c : Nat)
  /-- the waiter goroutine of `c`; `timeout`: L312 -/
  | outer (c : Nat) (timeout : Bool)
  /-- the inner waiter goroutine of `c`: `Wait` returns -/
  | inner (c : Nat)
  /-- actor `a` takes a message -/
  | take (a : Nat)
  /-- the handler of actor `a` ends -/
  | finish (a : Nat)
  /-- actor `a` calls `Done`, one half at a time -/
  | release (a : Nat)
  /-- user code sets `mw.Err` -/
  | setErr (w : Nat)
deriving DecidableEq

/-- No operation yet. (core/node/system_impl.go:293-345) -/
def noOp : Op := ⟨.ext 0, .call, 0, 0, 0, false, .returned false, .none, false, .off, .off⟩

/-- Before the first call. (core/node/system_impl.go:293-345) -/
def init : State where
  n := 0
  op := fun _ => noOp
  cur := fun _ => none
  rpc := fun _ => .idle
  cnt := fun _ => 0
  wg := fun _ => 0
  queue := fun _ => []
  busy := fun _ => none
  err := fun _ => false

/-- May goroutine `t` start an operation? A handler while its message is handled, the acceptor once
per request. (core/actor/actor_runtime_impl.go:338-345, core/node/system_acceptor.go:94-114) -/
def ready (s : State) (t : Thr) : Bool :=
  match t with
  | .ext _ => true
  | .hnd m => (s.op m).mpc = .handling
  | .acc r => (s.op r).cpc = .rpc ∧ s.rpc r = .idle

/-- The acceptor starts to serve a request. (core/node/system_acceptor.go:94-107) -/
def startRpc (rpc : Nat → Rpc) (t : Thr) : Nat → Rpc :=
  match t with
  | .acc r => upd rpc r .running
  | _ => rpc

/-- system_acceptor.go:108-113: the acceptor answers whatever its call returned. -/
def endRpc (rpc : Nat → Rpc) (t : Thr) : Nat → Rpc :=
  match t with
  | .acc r => upd rpc r .answered
  | _ => rpc

/-- Operation `c` returns; `x` is what remains of it. (core/node/system_impl.go:323-343) -/
def ret (s : State) (c : Nat) (x : Op) (ok : Bool) : State × List Ev :=
  ({ s with op := upd s.op c { x with cpc := .returned ok }, cur := upd s.cur x.thr none,
            rpc := endRpc s.rpc x.thr }, [.ret c ok (s.err x.wrp)])

/-- The next step of the goroutine that makes the call. (core/node/system_impl.go:323-360) -/
def stepGo (s : State) (c : Nat) (refuse : Bool) : Option (State × List Ev) :=
  let x := s.op c
  match x.cpc with
  | .recv =>
    if refuse then some (ret s c { x with ready := x.root } false) -- L323-326, L343
    else some ({ s with op := upd s.op c { x with cpc := .add1 } }, [])
  | .add1 => some ({ s with op := upd s.op c { x with cpc := .add2 }, cnt := upd s.cnt x.grp (s.cnt x.grp + 1) }, [])
  | .add2 => some ({ s with op := upd s.op c { x with cpc := .push }, wg := upd s.wg x.grp (s.wg x.grp + 1) }, [])
  | .push =>
    let s1 := { s with queue := upd s.queue x.act (s.queue x.act ++ [c]) }
    if x.root then
      some ({ s1 with op := upd s.op c { x with cpc := .ready, mpc := .queued } }, [.accepted c])
    else -- L343
      some ((ret s1 c { x with mpc := .queued } true).1, .accepted c :: (ret s1 c { x with mpc := .queued } true).2)
  | .ready => some ({ s with op := upd s.op c { x with cpc := .wait, ready := true } }, []) -- L327
  | .wait => if x.outer = .ended then some (ret s c x true) else none -- L330-331
  | .rpc => if s.rpc c = .answered then some (ret s c x true) else none -- L359-360
  | .returned _ => none

/-- The waiter goroutine (L300-321). (core/node/system_impl.go:300-321) -/
def stepOuter (s : State) (c : Nat) (timeout : Bool) : Option (State × List Ev) :=
  let x := s.op c
  match x.outer with
  | .blocked =>
    if x.ready then some ({ s with op := upd s.op c { x with outer := .sel, inner := .waiting } }, [])
    else none
  | .sel =>
    if timeout then -- L312-317
      some ({ s with op := upd s.op c { x with outer := .close }, err := upd s.err x.wrp true }, [.timeout c])
    else if x.inner = .closed then some ({ s with op := upd s.op c { x with outer := .close } }, []) -- L310
    else none
  | .close => some ({ s with op := upd s.op c { x with outer := .ended } }, []) -- L320
  | _ => none

/-- core/node/system_impl.go:295-357. -/
def step (s : State) (a : Act) : Option (State × List Ev) :=
  match a with
  | .begin t k a g w =>
    if s.cur t = none ∧ ready s t then
      let root : Bool := k = .call ∧ s.cnt g = 0 -- L295
      some ({ s with n := s.n + 1, cur := upd s.cur t (some s.n), rpc := startRpc s.rpc t,
                     op := upd s.op s.n ⟨t, k, a, g, w, root, if k = .remote then .rpc else .recv, .none, false,
                       if root then .blocked else .off, .off⟩ },
        if root then [.begin s.n t k g, .root s.n] else [.begin s.n t k g])
    else none
  | .go c refuse => if c < s.n then stepGo s c refuse else none
  | .expire c =>
    if c < s.n then
      match (s.op c).cpc with
      | .wait => -- L332-339
        some (({ (ret s c (s.op c) false).1 with err := upd s.err (s.op c).wrp true }),
          [.expired c, .ret c false true])
      | .rpc => -- L355-357
        some ((ret s c (s.op c) false).1, .expired c :: (ret s c (s.op c) false).2)
      | _ => none
    else none
  | .outer c timeout => if c < s.n then stepOuter s c timeout else none
  | .inner c => -- L305-306
    if c < s.n ∧ (s.op c).inner = .waiting ∧ s.wg (s.op c).grp = 0 then
      some ({ s with op := upd s.op c { s.op c with inner := .closed } }, [])
    else none
  | .take a => -- actor_runtime_impl.go:320-321
    match s.busy a, s.queue a with
    | none, m :: r =>
      some ({ s with busy := upd s.busy a (some m), queue := upd s.queue a r,
                     op := upd s.op m { s.op m with mpc := .handling } }, [])
    | _, _ => none
  | .finish a => -- L338-346
    match s.busy a with
    | some m =>
      if (s.op m).mpc = .handling ∧ s.cur (.hnd m) = none then
        some ({ s with op := upd s.op m { s.op m with mpc := .rel1 } }, [.handled m])
      else none
    | none => none
  | .release a => -- L335
    match s.busy a with
    | some m =>
      let x := s.op m
      match x.mpc with
      | .rel1 => some ({ s with op := upd s.op m { x with mpc := .rel2 }, cnt := upd s.cnt x.grp (s.cnt x.grp - 1) }, [])
      | .rel2 => some ({ s with op := upd s.op m { x with mpc := .done }, wg := upd s.wg x.grp (s.wg x.grp - 1),
                                busy := upd s.busy a none }, [])
      | _ => none
    | none => none
  | .setErr w => some ({ s with err := upd s.err w true }, [])

/-- The system. (core/node/system_impl.go:293-361) -/
def sys : Lts State Act Ev := ⟨init, step⟩

end Braid.CallTree
