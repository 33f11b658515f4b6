import Verif.Lib.Lts

/-
Model of the graceful shutdown of a node: `WaitClose` (core/node/node_process_impl.go:59-94) and
`NormalSystem.Exit` (core/node/system_impl.go:467-492), with actors that are registered and unregistered at
any time by other goroutines (system_impl.go:100-187).

Actors are numbered; each is one actor object with its own id, registered at most once. What an actor does
with its messages is not modelled: once its `shutdownCh` is closed its goroutine may end at any time, or
never. The unsynchronised iteration over the map of actors (L478) visits each key at most once, all keys that
are there from its beginning to its end, and any keys that are added meanwhile (the Go runtime may also end
the process when it notices such writes; that is left out). The address book is the set of actors of this
node that it has records of; its operations are single steps (they hold the node's distributed mutex).
-/
namespace Braid.Shutdown

/-- What is fixed in a run. (core/node/node_process_impl.go:59-94) -/
structure Cfg where
  /-- `nodePort != 0` and an acceptor -/
  acceptor : Bool

/-- Where `WaitClose` is. (core/node/node_process_impl.go:59-94; core/node/system_impl.go:467-492) -/
inductive MPc
  /-- L62: waiting for a signal -/
  | idle
  /-- system_impl.go:468-475: about to close the acceptor -/
  | acc
  /-- L477-485: iterating over the actors -/
  | iter
  /-- L487: about to clear the address book -/
  | clear
  /-- node_process_impl.go:83-88: waiting -/
  | wait
  | done
deriving DecidableEq

/-- The goroutine that L480 starts for an actor.
(core/node/system_impl.go:478-482; core/actor/actor_runtime_impl.go:366-377) -/
inductive GPc
  | no
  /-- about to close `shutdownCh` (actor_runtime_impl.go:368) -/
  | ask
  /-- L369: waiting for `closeCh` -/
  | wait
  | fin
deriving DecidableEq

/-- `Register` of an actor (system_impl.go:100-152). -/
inductive RPc
  | no
  /-- L133: about to write the record -/
  | book
  /-- L140-143: about to build and start the actor -/
  | build
  /-- L148: about to put it into the map -/
  | put
  | fin
deriving DecidableEq

/-- `Unregister` of an actor (system_impl.go:154-187). -/
inductive UPc
  | no
  /-- L165: about to close `shutdownCh` -/
  | exit
  /-- waiting for `closeCh` -/
  | wait
  /-- L169: about to remove it from the map -/
  | del
  /-- L179: about to remove its record -/
  | book
  | fin
deriving DecidableEq

/-- The state. (core/node/node_process_impl.go:59-94, core/node/system_impl.go:467-492) -/
structure State where
  main : MPc
  amap : List Nat
  /-- the keys the iteration must visit unless they are removed -/
  snap : List Nat
  visited : List Nat
  gx : Nat → GPc
  rx : Nat → RPc
  ux : Nat → UPc
  /-- the goroutine of the actor was started -/
  live : Nat → Bool
  /-- `shutdownCh` is closed -/
  shut : Nat → Bool
  /-- `closeCh` is closed: the goroutine of the actor has ended -/
  stopped : Nat → Bool
  /-- the address book has a record of it -/
  book : Nat → Bool
  /-- the counter of the wait group -/
  wg : Nat
  /-- `done` is closed -/
  doneCh : Bool
  crashed : Bool

/-- core/node/node_process_impl.go:85-87. -/
inductive Ev
  | sig
  | accClosed
  /-- the shutdown asks an actor to exit -/
  | ask (a : Nat)
  /-- its `Exit` has returned to the shutdown -/
  | exited (a : Nat)
  /-- the goroutine of the actor has ended -/
  | stopped (a : Nat)
  | regCall (a : Nat)
  | regFail (a : Nat)
  | recorded (a : Nat)
  | put (a : Nat)
  | unregCall (a : Nat)
  | erased (a : Nat)
  | cleared
  | clearFail
  /-- L85: all actors have shut down gracefully -/
  | graceful
  /-- L87 -/
  | timedOut
  /-- close of a closed channel -/
  | crash (a : Nat)
deriving DecidableEq

/-- core/node/system_impl.go:467-492. -/
inductive Act
  | sig
  | acc
  | visit (a : Nat)
  | endIter
  | clear (ok : Bool)
  | waiter
  | select
  | timeout
  /-- the next step of the goroutine of L480 for `a` -/
  | gx (a : Nat)
  /-- the actor ends -/
  | stop (a : Nat)
  | regCall (a : Nat)
  | reg (a : Nat) (ok : Bool)
  | unregCall (a : Nat)
  | unreg (a : Nat)
deriving DecidableEq

/-- One step. (core/node/node_process_impl.go:59-94, core/node/system_impl.go:467-492) -/
def step (c : Cfg) (s : State) (x : Act) : Option (State × List Ev) :=
  if s.crashed then none else
  match x with
  | .sig => if s.main = .idle then some ({ s with main := .acc }, [.sig]) else none
  | .acc => -- `wait.Add(1)` and `wait.Done()` around it cancel out
    if s.main = .acc then
      some ({ s with main := .iter, snap := s.amap }, if c.acceptor then [.accClosed] else [])
    else none
  | .visit a =>
    if s.main = .iter ∧ a ∈ s.amap ∧ a ∉ s.visited then
      some ({ s with visited := a :: s.visited, wg := s.wg + 1, gx := upd s.gx a .ask }, [])
    else none
  | .endIter =>
    if s.main = .iter ∧ ∀ a ∈ s.snap, a ∈ s.amap → a ∈ s.visited then some ({ s with main := .clear }, []) else none
  | .clear ok => -- an error is only logged
    if s.main = .clear then
      if ok then some ({ s with main := .wait, book := fun _ => false }, [.cleared])
      else some ({ s with main := .wait }, [.clearFail])
    else none
  | .waiter => if s.main = .wait ∧ s.wg = 0 then some ({ s with doneCh := true }, []) else none
  | .select => if s.main = .wait ∧ s.doneCh = true then some ({ s with main := .done }, [.graceful]) else none
  | .timeout => if s.main = .wait then some ({ s with main := .done }, [.timedOut]) else none
  | .gx a =>
    match s.gx a with
    | .ask =>
      if s.shut a then some ({ s with crashed := true }, [.crash a])
      else some ({ s with shut := upd s.shut a true, gx := upd s.gx a .wait }, [.ask a])
    | .wait =>
      if s.stopped a then some ({ s with wg := s.wg - 1, gx := upd s.gx a .fin }, [.exited a]) else none
    | _ => none
  | .stop a =>
    if s.live a = true ∧ s.shut a = true ∧ s.stopped a = false then
      some ({ s with stopped := upd s.stopped a true }, [.stopped a])
    else none
  | .regCall a => if s.rx a = .no then some ({ s with rx := upd s.rx a .book }, [.regCall a]) else none
  | .reg a ok =>
    match s.rx a with
    | .book =>
      if ok then some ({ s with rx := upd s.rx a .build, book := upd s.book a true }, [.recorded a])
      else some ({ s with rx := upd s.rx a .fin }, [.regFail a])
    | .build => some ({ s with rx := upd s.rx a .put, live := upd s.live a true }, [])
    | .put => some ({ s with rx := upd s.rx a .fin, amap := a :: s.amap }, [.put a])
    | _ => none
  | .unregCall a =>
    if s.ux a = .no then
      some ({ s with ux := upd s.ux a (if a ∈ s.amap then .exit else .book) }, [.unregCall a])
    else none
  | .unreg a =>
    match s.ux a with
    | .exit =>
      if s.shut a then some ({ s with crashed := true }, [.crash a])
      else some ({ s with shut := upd s.shut a true, ux := upd s.ux a .wait }, [])
    | .wait => if s.stopped a then some ({ s with ux := upd s.ux a .del }, []) else none
    | .del => some ({ s with amap := s.amap.filter (· ≠ a), ux := upd s.ux a .book }, [])
    | .book => some ({ s with book := upd s.book a false, ux := upd s.ux a .fin }, [.erased a])
    | _ => none

/-- A node that has just been made. (core/node/node_process_impl.go:59-94) -/
def init : State where
  main := .idle
  amap := []
  snap := []
  visited := []
  gx := fun _ => .no
  rx := fun _ => .no
  ux := fun _ => .no
  live := fun _ => false
  shut := fun _ => false
  stopped := fun _ => false
  book := fun _ => false
  wg := 0
  doneCh := false
  crashed := false

/-- The system. (core/node/node_process_impl.go:59-94, core/node/system_impl.go:467-492) -/
def sys (c : Cfg) : Lts State Act Ev := ⟨init, step c⟩

end Braid.Shutdown
