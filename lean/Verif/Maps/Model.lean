import Verif.Lib.Lts

/-
Model of the accesses to the maps (and one slice) that goroutines share: for every function the sequence of lock
operations and accesses along each of its paths.

Simplifications: one object at a time, with its one lock; what else the functions do between the accesses is left out (it
takes time, so everything may happen in between); calls that a function makes to others on the same object, which happen
while no lock is held, are goroutines of their own. An access takes two steps, `enter` and `leave`; a loop over a map is one
long access. The lock records who holds it; a `sync.RWMutex` also lets waiting writers block new readers, which only
excludes schedules.
-/
namespace Braid.Maps

/-- What is done with the map. (core/node/system_impl.go:106, 117, 147) -/
inductive Kind
  | read
  | write
deriving DecidableEq

/-- The operations, on the lock (`sync.RWMutex`, or `sync.Mutex`: only the first two) and on the map.
(core/node/system_impl.go:105-150) -/
inductive Op
  | lock
  | unlock
  | rlock
  | runlock
  | acc (k : Kind)
deriving DecidableEq

/-- The lock and the goroutines. (core/node/system_impl.go:24-42) -/
structure State where
  writer : Option Nat
  readers : List Nat
  /-- what a goroutine still has to do; `[]`: it is free -/
  todo : Nat → List Op
  /-- the access a goroutine is in -/
  ins : Nat → Option Kind

/-- What is seen of a run. (core/node/system_impl.go:105-150) -/
inductive Ev
  | enter (g : Nat) (k : Kind)
  | leave (g : Nat)
deriving DecidableEq

/-- A goroutine begins one of the paths, or takes its next step. (core/node/system_impl.go:105-150) -/
inductive Act
  | start (g : Nat) (p : List Op)
  | run (g : Nat)
deriving DecidableEq

/-- Nobody does anything. (core/node/system_impl.go:44-58) -/
def init : State := ⟨none, [], fun _ => [], fun _ => none⟩

/-- The next step of a goroutine. (core/node/system_impl.go:105-150) -/
def stepRun (s : State) (g : Nat) : Option (State × List Ev) :=
  match s.ins g with
  | some _ => some ({ s with ins := upd s.ins g none }, [.leave g])
  | none =>
    match s.todo g with
    | [] => none
    | .lock :: r =>
      if s.writer = none ∧ s.readers = [] then some ({ s with writer := some g, todo := upd s.todo g r }, []) else none
    | .unlock :: r => some ({ s with writer := none, todo := upd s.todo g r }, [])
    | .rlock :: r =>
      if s.writer = none then some ({ s with readers := g :: s.readers, todo := upd s.todo g r }, []) else none
    | .runlock :: r => some ({ s with readers := s.readers.erase g, todo := upd s.todo g r }, [])
    | .acc k :: r => some ({ s with ins := upd s.ins g (some k), todo := upd s.todo g r }, [.enter g k])

/-- Goroutines that run the paths `P`, as many and as often as they like. (core/node/system_impl.go:105-150) -/
def step (P : List (List Op)) (s : State) : Act → Option (State × List Ev)
  | .start g p =>
    if p ∈ P ∧ s.todo g = [] ∧ s.ins g = none then some ({ s with todo := upd s.todo g p }, []) else none
  | .run g => stepRun s g

/-- The system. (core/node/system_impl.go:105-150) -/
def sys (P : List (List Op)) : Lts State Act Ev := ⟨init, step P⟩

/-! ### The functions -/

/-- core/node/system_impl.go:106: a look at the map, or a loop over it. -/
abbrev rd : Op := .acc .read
/-- core/node/system_impl.go:147, 169: an assignment or `delete`. -/
abbrev wr : Op := .acc .write

/-- Functions that use `actoridmap` (core/node/system_impl.go). (core/node/system_impl.go:99-492) -/
inductive SysFn
  /-- L99-152; `unique`: the builder asks for one actor of the type per node and limits the number of actors -/
  | register (unique : Bool)
  /-- L154-187 -/
  | unregister
  /-- L189-195 -/
  | actors
  /-- L197-291, L363-437 -/
  | call
  /-- L455-465 -/
  | findActor
  /-- L467-492 -/
  | exit
deriving DecidableEq

/-- core/node/system_impl.go:99-492. -/
def SysFn.paths : SysFn → List (List Op)
  | .register false => [[], [.lock, rd, .unlock], [.lock, rd, .unlock, .lock, wr, .unlock]]
  | .register true => [[], [.lock, rd, .unlock], [.lock, rd, .unlock, rd], [.lock, rd, .unlock, rd, .lock, wr, .unlock]]
  | .unregister => [[.rlock, rd, .runlock], [.rlock, rd, .runlock, .lock, wr, .unlock]]
  | .actors => [[rd]]
  | .call => [[], [.rlock, rd, .runlock]]
  | .findActor => [[.rlock, rd, .runlock], [.rlock, rd, rd, .runlock]]
  | .exit => [[rd]]

/-- Functions that use `IDMap` (core/addressbook/addressbook_impl.go).
(core/addressbook/addressbook_impl.go:46-166) -/
inductive BookFn
  /-- L46-96 -/
  | register
  /-- L98-132 -/
  | unregister
  /-- L135-166 -/
  | getByID
deriving DecidableEq

/-- core/addressbook/addressbook_impl.go:46-166. -/
def BookFn.paths : BookFn → List (List Op)
  | .register => [[], [.rlock, rd, .runlock], [.rlock, rd, .runlock, .lock, wr, .unlock]]
  | .unregister => [[], [.lock, wr, .unlock]]
  | .getByID => [[], [.rlock, rd, .runlock]]

/-- Functions that use `topicMap` (lib/pubsub/ps_mgr.go). (lib/pubsub/ps_mgr.go:31-60) -/
inductive TopicFn
  /-- L31-39 -/
  | getTopic
  /-- L41-53 -/
  | createTopic
  /-- L55-60 -/
  | getOrCreate
deriving DecidableEq

/-- lib/pubsub/ps_mgr.go:31-60. -/
def TopicFn.paths : TopicFn → List (List Op)
  | .getTopic => [[.rlock, rd, .runlock]]
  | .createTopic => [[.lock, rd, .unlock], [.lock, rd, wr, .unlock]]
  | .getOrCreate =>
    [[.rlock, rd, .runlock], [.rlock, rd, .runlock, .lock, rd, .unlock], [.rlock, rd, .runlock, .lock, rd, wr, .unlock]]

/-- lib/pubsub/ps_topic.go:85-102, 138-150: `Sub`, the only function that uses `channelMap`. -/
def subPaths : List (List Op) := [[.lock, .unlock], [.lock, wr, .unlock]]

/-- Functions that use `taskMap` (lib/timer/timer.go). (lib/timer/timer.go:124-181) -/
inductive TaskFn
  /-- L124-128, L130-134 -/
  | all
  /-- L136-144, L146-150 -/
  | add
  /-- L152-156 -/
  | remove
  /-- L158-163, L165-170 -/
  | one
  /-- L172-181 -/
  | stop
deriving DecidableEq

/-- lib/timer/timer.go:124-181. -/
def TaskFn.paths : TaskFn → List (List Op)
  | .all => [[rd]]
  | .add => [[], [.lock, wr, .unlock]]
  | .remove => [[.lock, wr, .unlock]]
  | .one => [[rd], [rd, rd]]
  | .stop => [[rd]]

/-- Functions that use `chains` and `timers` of an actor (core/actor/actor_runtime_impl.go). There is no lock.
(core/actor/actor_runtime_impl.go:81-377) -/
inductive ActorFn
  /-- L81-87, and L146-159 -/
  | onEvent
  /-- L338: the loop looks for the handler -/
  | handle
  /-- L95-125 -/
  | onTimer
  /-- L127-137 -/
  | cancelTimer
  /-- L366-377, after the loop has ended -/
  | exit
deriving DecidableEq

/-- core/actor/actor_runtime_impl.go:81-87, 338: `chains`. -/
def ActorFn.chains : ActorFn → List (List Op)
  | .onEvent => [[rd], [rd, wr]]
  | .handle => [[rd]]
  | _ => [[]]

/-- core/actor/actor_runtime_impl.go:95-137, 371-373: `timers`. (With several timers the last path goes on like this.) -/
def ActorFn.timers : ActorFn → List (List Op)
  | .onTimer => [[wr]]
  | .cancelTimer => [[], [wr]]
  | .exit => [[rd], [rd, wr, rd]]
  | _ => [[]]

/-- Functions of one builder that use `Options` (core/actor/actor_build_impl.go).
(core/actor/actor_build_impl.go:32-69) -/
inductive OptFn
  /-- L32-37 -/
  | withOpt
  /-- L65-69 -/
  | getOpt
  /-- L59-63: the map itself is returned, and the caller reads it (tests/mock/mock_loader.go:25-27) -/
  | getOptions
deriving DecidableEq

/-- core/actor/actor_build_impl.go:32-69: all on one builder. -/
def OptFn.own : OptFn → List (List Op)
  | .withOpt => [[.lock, wr, .unlock]]
  | .getOpt => [[.rlock, rd, .runlock]]
  | .getOptions => [[.rlock, .runlock], [.rlock, .runlock, rd]]

/-- core/actor/actor_build_impl.go:32-69: on different builders of one type. The map is the same
(tests/mock/mock_loader.go:49-53 copies the pointer), the lock is not, so for the accesses to the map there is none. -/
def OptFn.shared : OptFn → List (List Op)
  | .withOpt => [[wr]]
  | .getOpt => [[rd]]
  | .getOptions => [[], [rd]]

/-- Functions that use `verList` (core/entity.go). (core/entity.go:37-67) -/
inductive VerFn
  /-- L37-39 -/
  | registerVersion
  /-- L43-53 -/
  | getStrategy
  /-- L55-67 -/
  | getNext
deriving DecidableEq

/-- core/entity.go:37-67: the list of versions, a slice. -/
def VerFn.paths : VerFn → List (List Op)
  | .registerVersion => [[rd, wr]]
  | .getStrategy => [[.rlock, rd, .runlock]]
  | .getNext => [[.rlock, rd, .runlock]]

/-- Functions that use `collections` (3rd/mgo/mgr.go). (3rd/mgo/mgr.go:66-87) -/
inductive MgoFn
  /-- L66-78 -/
  | collection
  /-- L81-87 -/
  | destroy
deriving DecidableEq

/-- 3rd/mgo/mgr.go:66-87. -/
def MgoFn.paths : MgoFn → List (List Op)
  | .collection => [[.rlock, rd, .runlock]]
  | .destroy => [[rd]]

/-- 3rd/mgo/mgr.go:27-64: `Build` with `n` connections writes after it has published `mgrPtr` (L35); a connection that
fails ends it (L51, L56). -/
def mgoBuild (n : Nat) : List (List Op) := (List.range (n + 1)).map (List.replicate · wr)

end Braid.Maps
