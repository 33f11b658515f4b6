import Verif.Lib.Lts

/-
Model of reentrant calls: `Runtime.ReenterCall` (core/actor/actor_runtime_impl.go:192-278), the reentry
case of the actor loop (L348-352) and the callbacks attached to the returned future.

Any number of reentrant calls of one actor run at the same time. Each has two goroutines, the rest of
the body of `ReenterCall`, the callback of the inner future, and its action in the reentry queue.

Simplifications: `Future.Complete` and `Future.Then` are one step each (they hold the mutex of the
future; `Verif/Future` has them operation by operation), and so are `Push` and `Pop` of the reentry
queue (`Verif/Mpsc`). The derived context of L210 is given to nobody but the error wrapper of L238 and
is left out. The loop stops at any moment between two pieces of work. `Complete` does not panic, so the
`recover` of L253-259 never finds anything.
-/
namespace Braid.Reenter

/-- What a callback can read in a `*msg.Wrapper`: the error and the response message (`none`: nil).
(core/actor/actor_runtime_impl.go:192-278) -/
structure Wrap where
  err : Option String
  res : Option Nat
deriving DecidableEq

/-- What `Sys.Call` gives: a response or an error. (core/actor/actor_runtime_impl.go:192-278) -/
inductive Outcome
  | ok (res : Option Nat)
  | err (e : String)
deriving DecidableEq

/-- The goroutine of L212-226. (core/actor/actor_runtime_impl.go:212-226) -/
inductive G1
  /-- L213: at the select -/
  | wait
  /-- L223: about to complete the future, with the error of the context -/
  | complete (e : String)
  | ended
deriving DecidableEq

/-- The goroutine of L228-245. (core/actor/actor_runtime_impl.go:228-245) -/
inductive G2
  /-- L235: inside `Sys.Call` -/
  | calling
  /-- L237 or L244: about to complete the inner future -/
  | complete (o : Outcome)
  | ended
deriving DecidableEq

/-- The callback of L248-275. (core/actor/actor_runtime_impl.go:248-275) -/
inductive Cb1
  /-- `Then` not yet called -/
  | off
  /-- registered at the inner future -/
  | stored
  /-- its goroutine runs, about to push (L274) -/
  | ready
  | ended
deriving DecidableEq

/-- A callback given to the returned future by the user. (core/actor/actor_reenter_impl.go:24-40) -/
inductive Cb
  | off
  /-- registered -/
  | stored
  /-- its goroutine has been started -/
  | ready (w : Wrap)
  | running (w : Wrap)
  | ended
deriving DecidableEq

/-- One reentrant call. (core/actor/actor_runtime_impl.go:192-278) -/
structure Call where
  /-- the `Err` and `Res` of the caller's wrapper `rmw` -/
  rmw : Wrap
  /-- `rmw.Ctx.Err()` -/
  ctx : Option String
  g1 : G1
  g2 : G2
  cb1 : Cb1
  /-- the result of `callFuture` -/
  inner : Option Outcome
  /-- the result of `reenterFuture` -/
  fut : Option Wrap
deriving DecidableEq

/-- The actor loop. (core/actor/actor_runtime_impl.go:303-363) -/
inductive LPc
  | sel
  /-- a message handler or a timer callback runs -/
  | work (j : Nat)
  /-- L261: the action of call `c` with its message -/
  | action (c : Nat) (o : Outcome)
  /-- L263, L268: about to complete the future -/
  | complete (c : Nat)
  | stopped
deriving DecidableEq

/-- The calls, the queue of results and the loop. (core/actor/actor_runtime_impl.go:192-278, 348-352) -/
structure State where
  /-- number of reentrant calls made so far -/
  n : Nat
  call : Nat → Call
  cb : Nat → Nat → Cb
  /-- the reentry queue -/
  queue : List (Nat × Outcome)
  loop : LPc
  /-- number of pieces of work so far -/
  works : Nat

/-- What is seen of a run. (core/actor/actor_runtime_impl.go:192-278) -/
inductive Ev
  /-- `ReenterCall` number `c` begins, with a wrapper whose `Err` is `e0` -/
  | begin (c : Nat) (e0 : Option String)
  /-- its `Sys.Call` returns -/
  | callRet (c : Nat) (o : Outcome)
  /-- its context ends -/
  | ctxEnd (c : Nat) (e : String)
  /-- its future is completed (`onLoop`: by the actor loop) -/
  | completed (c : Nat) (w : Wrap) (onLoop : Bool)
  /-- callback `k` is attached -/
  | attach (c k : Nat)
  /-- callback `k` starts with `w` -/
  | cbStart (c k : Nat) (w : Wrap)
  | cbEnd (c k : Nat)
  | workStart (j : Nat)
  | workEnd (j : Nat)
  | stop
deriving DecidableEq

/-- core/actor/actor_runtime_impl.go:193-361. -/
inductive Act
  | begin (e0 : Option String) (r0 : Option Nat)
  /-- L248 -/
  | then1 (c : Nat)
  | ctxEnd (c : Nat) (e : String)
  /-- goroutine 1 of `c`; `ctx`: which case of the select -/
  | g1 (c : Nat) (ctx : Bool)
  | callRet (c : Nat) (o : Outcome)
  | g2 (c : Nat)
  /-- the callback of the inner future of `c` pushes -/
  | push (c : Nat)
  | attach (c k : Nat)
  | cbRun (c k : Nat)
  | cbEnd (c k : Nat)
  | work
  | workEnd
  | select
  | loop
  | stop
deriving DecidableEq

/-- Before the first call. (core/actor/actor_runtime_impl.go:52-71) -/
def init : State where
  n := 0
  call := fun _ => ⟨⟨none, none⟩, none, .ended, .ended, .off, none, none⟩
  cb := fun _ _ => .off
  queue := []
  loop := .sel
  works := 0

/-- Stores a call. (core/actor/actor_runtime_impl.go:192-278) -/
def setCall (s : State) (c : Nat) (x : Call) : State := { s with call := upd s.call c x }

/-- core/actor/actor_reenter_impl.go:42-57 `Complete`: starts the registered callbacks. -/
def fire (f : Nat → Cb) (w : Wrap) : Nat → Cb := fun k => if f k = .stored then .ready w else f k

/-- `reenterFuture.Complete(w)` of call `c`. (core/actor/actor_reenter_impl.go:42-57) -/
def complete (s : State) (c : Nat) (w : Wrap) (onLoop : Bool) : State × List Ev :=
  match (s.call c).fut with
  | some _ => (s, [])
  | none =>
    ({ setCall s c { s.call c with fut := some w } with cb := upd s.cb c (fire (s.cb c) w) },
      [.completed c w onLoop])

/-- core/actor/actor_runtime_impl.go:193-361. -/
def step (s : State) : Act → Option (State × List Ev)
  | .begin e0 r0 => -- L193-245
    some ({ setCall s s.n ⟨⟨e0, r0⟩, none, .wait, .calling, .off, none, none⟩ with n := s.n + 1 },
      [.begin s.n e0])
  | .then1 c => -- L248; actor_reenter_impl.go:24-40
    let x := s.call c
    if c < s.n ∧ x.cb1 = .off then
      match x.inner with
      | some _ => some (setCall s c { x with cb1 := .ready }, [])
      | none => some (setCall s c { x with cb1 := .stored }, [])
    else none
  | .ctxEnd c e =>
    let x := s.call c
    if c < s.n ∧ x.ctx = none then some (setCall s c { x with ctx := some e }, [.ctxEnd c e]) else none
  | .g1 c ctx =>
    let x := s.call c
    match x.g1 with
    | .wait => -- L213
      if ctx then
        match x.ctx with
        | some e => some (setCall s c { x with g1 := .complete e }, []) -- L214-221
        | none => none
      else
        match x.inner with
        | some _ => some (setCall s c { x with g1 := .ended }, []) -- L224
        | none => none
    | .complete e => -- L223
      some (complete (setCall s c { x with g1 := .ended }) c ⟨some e, none⟩ false)
    | .ended => none
  | .callRet c o => -- L235
    let x := s.call c
    match x.g2 with
    | .calling => some (setCall s c { x with g2 := .complete o }, [.callRet c o])
    | _ => none
  | .g2 c => -- L237, L244; actor_reenter_impl.go:42-57
    let x := s.call c
    match x.g2 with
    | .complete o =>
      some (setCall s c { x with
        g2 := .ended, inner := some o, cb1 := if x.cb1 = .stored then .ready else x.cb1 }, [])
    | _ => none
  | .push c => -- L250-274
    let x := s.call c
    match x.cb1, x.inner with
    | .ready, some o =>
      some ({ setCall s c { x with cb1 := .ended } with queue := s.queue ++ [(c, o)] }, [])
    | _, _ => none
  | .attach c k => -- actor_reenter_impl.go:24-40 on the returned future, after L277
    let x := s.call c
    if c < s.n ∧ x.cb1 ≠ .off ∧ s.cb c k = .off then
      match x.fut with
      | some w => some ({ s with cb := upd s.cb c (upd (s.cb c) k (.ready w)) }, [.attach c k])
      | none => some ({ s with cb := upd s.cb c (upd (s.cb c) k .stored) }, [.attach c k])
    else none
  | .cbRun c k =>
    match s.cb c k with
    | .ready w => some ({ s with cb := upd s.cb c (upd (s.cb c) k (.running w)) }, [.cbStart c k w])
    | _ => none
  | .cbEnd c k =>
    match s.cb c k with
    | .running _ => some ({ s with cb := upd s.cb c (upd (s.cb c) k .ended) }, [.cbEnd c k])
    | _ => none
  | .work => -- L305, L320
    match s.loop with
    | .sel => some ({ s with loop := .work s.works, works := s.works + 1 }, [.workStart s.works])
    | _ => none
  | .workEnd =>
    match s.loop with
    | .work j => some ({ s with loop := .sel }, [.workEnd j])
    | _ => none
  | .select => -- L348-351
    match s.loop, s.queue with
    | .sel, (c, o) :: q => some ({ s with loop := .action c o, queue := q }, [])
    | _, _ => none
  | .loop =>
    match s.loop with
    | .action c (.err e) => -- L261-262
      let x := s.call c
      some ({ setCall s c { x with rmw := { x.rmw with err := some e } } with loop := .complete c }, [])
    | .action c (.ok r) => -- L267
      let x := s.call c
      some ({ setCall s c { x with rmw := { x.rmw with res := r } } with loop := .complete c }, [])
    | .complete c => -- L263, L268
      some (complete { s with loop := .sel } c (s.call c).rmw true)
    | _ => none
  | .stop => -- L359-361
    match s.loop with
    | .sel => some ({ s with loop := .stopped }, [.stop])
    | _ => none

/-- The system. (core/actor/actor_runtime_impl.go:192-278, 280-364) -/
def sys : Lts State Act Ev := ⟨init, step⟩

end Braid.Reenter
