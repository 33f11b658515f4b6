import Verif.Mpsc.Model

/-
Model of one running actor (`core/actor/actor_runtime_impl.go`): any number of goroutines that call
`Received`, the pub/sub goroutines that push into the mailbox, goroutines that push into the reentry
queue, timers, any number of callers of `Exit`, the actor loop `update` and its `checkClose` goroutine.

The two queues are the queue model of `Verif/Mpsc/Model.lean`, operation by operation.

Simplifications: `WrapWaitGroup.Add` and `Done` (lib/warpwaitgroup/warpwaitgroup.go:16-27) change two counters
one after the other; here they change one counter `wg` in one step. `wg g` counts what this
actor has added to and removed from group `g` (other actors may share the group). What the timer
goroutines do is in `Verif/Timer`; here a tick may arrive at any moment. Handlers take any time and end
with any of the outcomes; what they do to other actors is not part of this model. The recovery
function does not panic.
-/
namespace Braid.Actor

/-- What the runtime looks at in a `msg.Wrapper` (router/msg/msg.go:20-28): a tag (which wrapper it
is), its wait group (`GetWg`, L137-142), `Req.Header.OrgActorID` and `Req.Header.Event`. -/
structure Msg where
  tag : Nat
  wg : Nat
  org : String
  ev : String
deriving DecidableEq

/-- Where a goroutine that delivers messages is. (core/actor/actor_runtime_impl.go:180-187) -/
inductive SPc
  | idle
  /-- in `Received`, L180: about to load `closed` -/
  | load (m : Msg)
  /-- L186 (or lib/pubsub/ps_channel.go:102): about to add to the wait group -/
  | add (m : Msg)
  /-- L187 (or ps_channel.go:103): about to call `Push` -/
  | push (m : Msg)
  /-- inside `Push`, call number `id` -/
  | pushing (id : Nat) (m : Msg)
deriving DecidableEq

/-- How the handling of a message ends (L329-346). (core/actor/actor_runtime_impl.go:329-346) -/
inductive Out
  | ok
  | err
  | panic
  /-- no chain is registered for the event (L343-345) -/
  | unknown
deriving DecidableEq

/-- Where the goroutine running `update` is. (core/actor/actor_runtime_impl.go:304-361) -/
inductive LPc
  /-- at the select, L304 -/
  | sel
  /-- L305: received a tick of timer `t`, about to load `closed` (L306) -/
  | tick (t : Nat)
  /-- L316: the callback of timer `t` runs -/
  | timer (t : Nat)
  /-- L320: received from `q.C`, about to call `Pop` (L321) -/
  | got
  /-- inside `q.Pop` -/
  | pop
  /-- L338-345: handling message `m` of push `id` -/
  | handle (id : Nat) (m : Msg)
  /-- L335: in the deferred function, about to call `Done` -/
  | release (id : Nat) (m : Msg)
  /-- L348: received from `reenterQueue.C`, about to call `Pop` (L349) -/
  | rgot
  /-- inside `reenterQueue.Pop` -/
  | rpop
  /-- L351: the action of reentry message `r` (push `id`) runs -/
  | action (id : Nat) (r : Nat)
  /-- L361: returned -/
  | stopped
deriving DecidableEq

/-- Where the goroutine running `checkClose` is (L281-301). (core/actor/actor_runtime_impl.go:281-301) -/
inductive CkPc
  /-- not started -/
  | off
  /-- L286: about to evaluate `a.q.Empty()` -/
  | testQ
  /-- L286: the first queue was empty, about to evaluate `a.reenterQueue.Empty()` -/
  | testR
  /-- L287: waiting for the ticker or the timeout -/
  | wait
  /-- L297; `forced`: the timeout fired -/
  | cas (forced : Bool)
  /-- L299 -/
  | close
  | finished
deriving DecidableEq

/-- Where a goroutine that called `Exit` is. (core/actor/actor_runtime_impl.go:366-377) -/
inductive EPc
  | idle
  /-- L369: waiting for `closeCh` -/
  | waiting
  /-- returned -/
  | returned
deriving DecidableEq

/-- L25-42 `type Runtime struct` (what changes after `Init`), and the goroutines.
(core/actor/actor_runtime_impl.go:25-42) -/
structure State where
  mb : Mpsc.St Msg
  rq : Mpsc.St Nat
  closed : Nat
  closeCh : Bool
  shutdownCh : Bool
  chains : List String
  timerChan : List Nat
  wg : Nat → Int
  snd : Nat → SPc
  loop : LPc
  chk : CkPc
  ext : Nat → EPc
  crashed : Bool

/-- What can be seen from outside. The numbers `id` of the pushes are labels for stating properties.
(core/actor/actor_runtime_impl.go:172-377) -/
inductive Ev
  /-- goroutine `p` calls `Received(m)` -/
  | call (p : Nat) (m : Msg)
  /-- it returns an error (`self`: `ErrSelfCall`) -/
  | refused (p : Nat) (m : Msg) (self : Bool)
  /-- `p` has added one to the wait group of `m` -/
  | added (p : Nat) (m : Msg)
  /-- `p` calls `Push` on the mailbox -/
  | enter (p id : Nat) (m : Msg)
  /-- that `Push` returns; `Received` returns nil -/
  | accepted (p id : Nat) (m : Msg)
  /-- the loop calls `Pop` on the mailbox -/
  | poll
  /-- which returns nil -/
  | nothing
  /-- the loop starts handling -/
  | start (id : Nat) (m : Msg)
  /-- and ends it -/
  | finish (id : Nat) (m : Msg) (o : Out)
  /-- and has called `Done` -/
  | released (id : Nat) (m : Msg)
  | timerStart (t : Nat)
  | timerEnd (t : Nat)
  | renter (p id r : Nat)
  | rentered (id : Nat)
  | rpoll
  | rnothing
  | actionStart (id r : Nat)
  | actionEnd (id r : Nat)
  /-- the loop has seen the shutdown signal and set `closed` -/
  | closing
  /-- `checkClose` gave up waiting -/
  | forced
  /-- the loop has ended -/
  | loopEnd
  | exitCall (x : Nat)
  | exitRet (x : Nat)
  | onEvent (ev : String) (ok : Bool)
  /-- the process panics -/
  | crash
deriving DecidableEq

/-- A case of the select of `update`. (core/actor/actor_runtime_impl.go:305-362) -/
inductive Sel
  | timer | mail | reenter | shutdown | close
deriving DecidableEq

/-- Who takes the next step. (core/actor/actor_runtime_impl.go:172-377) -/
inductive Act
  | recv (p : Nat) (m : Msg)
  | deliver (p : Nat) (m : Msg)
  | send (p : Nat)
  | rpush (p r : Nat)
  | rsend (p : Nat)
  | tick (t : Nat)
  | onEvent (ev : String)
  | select (c : Sel)
  | loop
  | ended (o : Out)
  | check (timeout : Bool)
  | exit (x : Nat)
  | exitWait (x : Nat)
deriving DecidableEq

/-- L52-71 `Init`. (core/actor/actor_runtime_impl.go:52-71) -/
def init : State where
  mb := Mpsc.init Msg
  rq := Mpsc.init Nat
  closed := 0
  closeCh := false
  shutdownCh := false
  chains := []
  timerChan := []
  wg := fun _ => 0
  snd := fun _ => .idle
  loop := .sel
  chk := .off
  ext := fun _ => .idle
  crashed := false

/-- L172-190 `Received`, and lib/pubsub/ps_channel.go:99-103 (from the wait group on). -/
def stepSend (s : State) (p : Nat) : Option (State × List Ev) :=
  match s.snd p with
  | .idle => none
  | .load m => -- L180
    if s.closed ≠ 0 then some ({ s with snd := upd s.snd p .idle }, [.refused p m false])
    else some ({ s with snd := upd s.snd p (.add m) }, [])
  | .add m => -- L186
    some ({ s with wg := upd s.wg m.wg (s.wg m.wg + 1), snd := upd s.snd p (.push m) }, [.added p m])
  | .push m => -- L187
    match Mpsc.step s.mb (.push p m) with
    | some (q, [.pushInv _ id _]) =>
      some ({ s with mb := q, snd := upd s.snd p (.pushing id m) }, [.enter p id m])
    | _ => none
  | .pushing id m =>
    match Mpsc.step s.mb (.prod p) with
    | some (q, []) => some ({ s with mb := q }, [])
    | some (q, [.pushRet _]) => -- L189
      some ({ s with mb := q, snd := upd s.snd p .idle }, [.accepted p id m])
    | _ => none

/-- L303-363: the next operation of the loop inside a case of the select.
(core/actor/actor_runtime_impl.go:303-363) -/
def stepLoop (s : State) : Option (State × List Ev) :=
  match s.loop with
  | .tick t => -- L306
    if s.closed ≠ 0 then some ({ s with loop := .sel }, [])
    else some ({ s with loop := .timer t }, [.timerStart t])
  | .got => -- L321
    match Mpsc.step s.mb .pop with
    | some (q, [.popInv]) => some ({ s with mb := q, loop := .pop }, [.poll])
    | _ => none
  | .pop =>
    match Mpsc.step s.mb .cons with
    | some (q, []) => some ({ s with mb := q }, [])
    | some (q, [.popRet none]) => some ({ s with mb := q, loop := .sel }, [.nothing]) -- L324-326
    | some (q, [.popRet (some (id, m))]) => -- L329
      some ({ s with mb := q, loop := .handle id m }, [.start id m])
    | _ => none
  | .release id m => -- L335
    some ({ s with wg := upd s.wg m.wg (s.wg m.wg - 1), loop := .sel }, [.released id m])
  | .rgot => -- L349
    match Mpsc.step s.rq .pop with
    | some (q, [.popInv]) => some ({ s with rq := q, loop := .rpop }, [.rpoll])
    | _ => none
  | .rpop =>
    match Mpsc.step s.rq .cons with
    | some (q, []) => some ({ s with rq := q }, [])
    | some (q, [.popRet none]) => some ({ s with rq := q, loop := .sel }, [.rnothing])
    | some (q, [.popRet (some (id, r))]) => -- L350-351
      some ({ s with rq := q, loop := .action id r }, [.actionStart id r])
    | _ => none
  | _ => none

/-- L316, L338-345, L351: user code (or the lookup) ends. (core/actor/actor_runtime_impl.go:309-351) -/
def stepEnded (s : State) (o : Out) : Option (State × List Ev) :=
  match s.loop with
  | .timer t => some ({ s with loop := .sel }, [.timerEnd t]) -- L309-319, also after a panic
  | .handle id m =>
    -- L338: without a chain for the event the outcome is `unknown`, with one it is not
    if (o = .unknown) ↔ m.ev ∉ s.chains then
      some ({ s with loop := .release id m }, [.finish id m o])
    else none
  | .action id r => some ({ s with loop := .sel }, [.actionEnd id r])
  | _ => none

/-- L304: the select chooses one of the cases that are ready. (core/actor/actor_runtime_impl.go:304-361) -/
def stepSelect (s : State) (c : Sel) : Option (State × List Ev) :=
  match s.loop with
  | .sel =>
    match c with
    | .timer => -- L305
      match s.timerChan with
      | t :: r => some ({ s with timerChan := r, loop := .tick t }, [])
      | [] => none
    | .mail => -- L320
      match Mpsc.step s.mb .recv with
      | some (q, _) => some ({ s with mb := q, loop := .got }, [])
      | none => none
    | .reenter => -- L348
      match Mpsc.step s.rq .recv with
      | some (q, _) => some ({ s with rq := q, loop := .rgot }, [])
      | none => none
    | .shutdown => -- L354-358
      if s.shutdownCh then
        if s.closed = 0 then some ({ s with closed := 1, chk := .testQ }, [.closing])
        else some (s, [])
      else none
    | .close => -- L359-361
      if s.closeCh then some ({ s with loop := .stopped }, [.loopEnd]) else none
  | _ => none

/-- L281-301: the next operation of `checkClose`. (core/actor/actor_runtime_impl.go:281-301) -/
def stepCheck (s : State) (timeout : Bool) : Option (State × List Ev) :=
  match s.chk with
  | .testQ => -- L286
    if Mpsc.empty s.mb then some ({ s with chk := .testR }, []) else some ({ s with chk := .wait }, [])
  | .testR => -- L286
    if Mpsc.empty s.rq then some ({ s with chk := .cas false }, [])
    else some ({ s with chk := .wait }, [])
  | .wait => -- L287-293
    if timeout then some ({ s with chk := .cas true }, [.forced])
    else some ({ s with chk := .testQ }, [])
  | .cas _ => -- L297
    if s.closed = 1 then some ({ s with closed := 2, chk := .close }, [])
    else some ({ s with chk := .finished }, [])
  | .close => some ({ s with closeCh := true, chk := .finished }, []) -- L299
  | _ => none

/-- One step of an actor with id `self`. (core/actor/actor_runtime_impl.go:68-376) -/
def step (self : String) (s : State) (a : Act) : Option (State × List Ev) :=
  if s.crashed then none else
  match a with
  | .recv p m => -- L172-178
    match s.snd p with
    | .idle =>
      if m.org ≠ "" ∧ m.org = self then some (s, [.call p m, .refused p m true])
      else some ({ s with snd := upd s.snd p (.load m) }, [.call p m])
    | _ => none
  | .deliver p m => -- ps_channel.go:99-101
    match s.snd p with
    | .idle => some ({ s with snd := upd s.snd p (.add m) }, [])
    | _ => none
  | .send p => stepSend s p
  | .rpush p r => -- L274
    match Mpsc.step s.rq (.push p r) with
    | some (q, [.pushInv _ id _]) => some ({ s with rq := q }, [.renter p id r])
    | _ => none
  | .rsend p =>
    match Mpsc.step s.rq (.prod p) with
    | some (q, []) => some ({ s with rq := q }, [])
    | some (q, [.pushRet id]) => some ({ s with rq := q }, [.rentered id])
    | _ => none
  | .tick t => -- L110, L118; capacity of L68
    if s.timerChan.length < 1024 then some ({ s with timerChan := s.timerChan ++ [t] }, []) else none
  | .onEvent ev => -- L81-87
    if ev ∈ s.chains then some (s, [.onEvent ev false])
    else some ({ s with chains := s.chains ++ [ev] }, [.onEvent ev true])
  | .select c => stepSelect s c
  | .loop => stepLoop s
  | .ended o => stepEnded s o
  | .check t => stepCheck s t
  | .exit x => -- L366-368: closing a closed channel panics
    match s.ext x with
    | .waiting => none
    | _ =>
      if s.shutdownCh then some ({ s with crashed := true }, [.exitCall x, .crash])
      else some ({ s with shutdownCh := true, ext := upd s.ext x .waiting }, [.exitCall x])
  | .exitWait x => -- L369-376; stopping the timers is in Verif/Timer
    match s.ext x with
    | .waiting =>
      if s.closeCh then some ({ s with ext := upd s.ext x .returned }, [.exitRet x]) else none
    | _ => none

/-- An actor with id `self`. (core/actor/actor_runtime_impl.go:52-377) -/
def sys (self : String) : Lts State Act Ev := ⟨init, step self⟩

end Braid.Actor
