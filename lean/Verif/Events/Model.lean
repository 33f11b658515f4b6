import Verif.Lib.Lts

/-
Model of the event handlers of an actor: `core/actor/actor_runtime_impl.go` `OnEvent`, `Sub` and the part of
`update` that looks up the handler of a message, for any sequence of registrations, subscriptions and messages.

Simplifications: a chain function is a number, and the chain it makes is known by that number; a chain function
returns (it does not panic) and its chain is not nil. The registrations and the look-ups are atomic steps: the
map `chains` has no lock, so this is the behaviour of registrations made before messages arrive or from handlers
of the actor. The queue is a list (`Verif/Mpsc` is about the queue itself). What a chain does is not modelled here
(`Verif/Chain`, `Verif/Actor`).
-/
namespace Braid.Events

/-- A message in the queue of the actor: its number, the topic and the channel it came from, if it was published,
and `Req.Header.Event`. (core/actor/actor_runtime_impl.go:320-346) -/
structure Item where
  id : Nat
  src : Option (String × String)
  event : String
deriving DecidableEq

/-- L25-41: the fields used here. (core/actor/actor_runtime_impl.go:25-41) -/
structure State where
  chains : List (String × Nat)
  q : List Item

/-- What is seen of a run. (core/actor/actor_runtime_impl.go:81-87, 320-346) -/
inductive Ev
  /-- `OnEvent(ev, f)` returned, with no error iff `ok` -/
  | onEvent (ev : String) (f : Nat) (ok : Bool)
  /-- `Sub(topic, channel, f)` returned, with no error iff `ok` -/
  | sub (topic channel : String) (f : Nat) (ok : Bool)
  /-- a message was put into the queue -/
  | pushed (m : Item)
  /-- the message was given to the chain made by `f` -/
  | handled (m : Item) (f : Nat)
  /-- the message was dropped with the warning "No handlers" -/
  | unhandled (m : Item)
deriving DecidableEq

/-- Who takes the next step. (core/actor/actor_runtime_impl.go:81-87, 145-157, 172-190, 320-346) -/
inductive Act
  | onEvent (ev : String) (f : Nat)
  /-- `ok`: the topic and its channel could be created in Redis -/
  | sub (topic channel : String) (f : Nat) (ok : Bool)
  | push (m : Item)
  | dispatch
deriving DecidableEq

/-- `a.chains[ev]`. (core/actor/actor_runtime_impl.go:82, 338) -/
def find (cs : List (String × Nat)) (ev : String) : Option Nat := (cs.find? (·.1 = ev)).map (·.2)

/-- L81-87 `OnEvent`: the new map and whether there was no error. (core/actor/actor_runtime_impl.go:81-87) -/
def onEvent (cs : List (String × Nat)) (ev : String) (f : Nat) : List (String × Nat) × Bool :=
  if (find cs ev).isSome then (cs, false) else (cs ++ [(ev, f)], true)

/-- L145-157 `Sub`: the result of `OnEvent(channel, callback)` is ignored. `Arrived` makes the messages of the
channel arrive in `a.q`, which is the step `push`. (core/actor/actor_runtime_impl.go:145-157) -/
def sub (cs : List (String × Nat)) (channel : String) (f : Nat) (ok : Bool) : List (String × Nat) × Bool :=
  if ok then ((onEvent cs channel f).1, true) else (cs, false)

/-- core/actor/actor_runtime_impl.go:60-346. -/
def step (s : State) : Act → Option (State × List Ev)
  | .onEvent ev f => some ({ s with chains := (onEvent s.chains ev f).1 }, [.onEvent ev f (onEvent s.chains ev f).2])
  | .sub t c f ok => some ({ s with chains := (sub s.chains c f ok).1 }, [.sub t c f (sub s.chains c f ok).2])
  /- `lib/pubsub/ps_channel.go` L99-103: the event of a published message is the one given to `Pub`, L60-66. -/
  | .push m => some ({ s with q := s.q ++ [m] }, [.pushed m])
  /- L316-346: one message is taken from the queue and given to the chain of its event. -/
  | .dispatch =>
    match s.q with
    | [] => none
    | m :: q =>
      match find s.chains m.event with
      | some f => some ({ s with q }, [.handled m f])
      | none => some ({ s with q }, [.unhandled m])

/-- The system. (core/actor/actor_runtime_impl.go:81-87, 145-157, 320-346) -/
def sys : Lts State Act Ev := ⟨⟨[], []⟩, step⟩

end Braid.Events
