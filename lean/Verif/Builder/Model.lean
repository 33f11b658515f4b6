/-
Model of actor builders: `core/actor/actor_build_impl.go`, with the loader that makes them
(`tests/mock/mock_loader.go:45-58`, the only one in the repository).

A map of options is an address in a heap; nil is `none`. A builder holds a copy of the constructor (L51-55 of the
loader: `ActorConstructor: *ac`), so it has its own id and the same map. Calls are taken one at a time: each builder
has its own mutex (actor_build_impl.go:16), which does not guard the map that they share.
-/
namespace Braid.Builder

/-- core/actor.go:189-208; the fields that builders can change. -/
structure Ctor where
  id : String
  name : String
  options : Option Nat
deriving DecidableEq

/-- The maps of options. (core/actor/actor_build_impl.go:11-17) -/
abbrev Heap := Nat → String → Option String

/-- Builders and maps. (core/actor/actor_build_impl.go:11-17, tests/mock/mock_loader.go:45-58) -/
structure State where
  heap : Heap
  /-- the builders made so far; builder `b` is the one at index `b` -/
  builders : List Ctor

/-- The calls. (core/actor/actor_build_impl.go:19-69, tests/mock/mock_loader.go:45-58) -/
inductive Op
  /-- `loader.Builder(ty, sys)` -/
  | make (ty : String)
  | withID (b : Nat) (id : String)
  | withType (b : Nat) (ty : String)
  | withOpt (b : Nat) (k v : String)
deriving DecidableEq

/-- Stores a value in a map. (core/actor/actor_build_impl.go:32-37) -/
def write (h : Heap) (a : Nat) (k v : String) : Heap := fun a' k' => if a' = a ∧ k' = k then some v else h a' k'

/-- One call; `none`: panic, or a call on a builder that does not exist. `factory`: `IActorFactory.Get`.
(core/actor/actor_build_impl.go:19-90; tests/mock/mock_loader.go:45-58) -/
def step (factory : String → Option Ctor) (s : State) : Op → Option State
  | .make ty => -- mock_loader.go:45-58
    match factory ty with
    | none => some s
    | some c => some { s with builders := s.builders ++ [c] }
  | .withID b id => -- actor_build_impl.go:19-25
    match s.builders[b]? with
    | none => none
    | some c => if id = "" then none else some { s with builders := s.builders.set b { c with id := id } }
  | .withType b ty => -- actor_build_impl.go:27-30
    match s.builders[b]? with
    | none => none
    | some c => some { s with builders := s.builders.set b { c with name := ty } }
  | .withOpt b k v => -- actor_build_impl.go:32-37
    match s.builders[b]? with
    | none => none
    | some c => match c.options with
      | none => none
      | some a => some { s with heap := write s.heap a k v }

/-- A sequence of calls. (core/actor/actor_build_impl.go:19-69) -/
def run (factory : String → Option Ctor) (s : State) : List Op → Option State
  | [] => some s
  | o :: l => (step factory s o).bind (run factory · l)

/-- actor_build_impl.go:65-69 `GetOpt`; a missing key and a nil map give "". -/
def getOpt (s : State) (b : Nat) (k : String) : String :=
  match s.builders[b]? with
  | some c => match c.options with
    | some a => (s.heap a k).getD ""
    | none => ""
  | none => ""

/-- actor_build_impl.go:39-41 `GetID` -/
def getID (s : State) (b : Nat) : String :=
  match s.builders[b]? with
  | some c => c.id
  | none => ""

end Braid.Builder
