import Verif.PubSub.Model

/-
The end of a subscription: `Channel.Close` (lib/pubsub/ps_channel.go:122-144) and `Runtime.Exit` of the actor that subscribed
(core/actor/actor_runtime_impl.go:364-377), over the model of `Verif/PubSub/Model.lean`.
-/
namespace Braid.PubSub

/-- The streams and subscribers, and the actors that have exited: `gone c` is the actor whose mailbox the subscriber `c` fills.
(core/actor/actor_runtime_impl.go:145-157) -/
structure EndState where
  ps : State
  gone : Nat → Bool

/-- core/actor/actor_runtime_impl.go:364-377, lib/pubsub/ps_channel.go:27-144. -/
inductive EndAct
  | ps (a : Act)
  /-- `Exit` of the actor returns -/
  | exit (c : Nat)

/-- core/actor/actor_runtime_impl.go:364-377, lib/pubsub/ps_channel.go:27-144. -/
inductive EndEv
  | ps (e : Ev)
  /-- `Close` of subscriber `c` returned -/
  | closed (c : Nat)
  /-- `Exit` of the actor of subscriber `c` returned -/
  | exited (c : Nat)
deriving DecidableEq

/-- The subscriber whose `Close` returns with this command. (lib/pubsub/ps_channel.go:130-143) -/
def returns (s : State) : Act → Option Nat
  | .close c =>
    match (s.subs c).close with
    | .no => none
    | .deleted => if s.consumers (s.subs c).group = [] then none else some c
    | .empty => some c
  | _ => none

/-- `Exit` does nothing about subscriptions: it does not call `Close`, and nothing else does.
(core/actor/actor_runtime_impl.go:364-377) -/
def endStep (s : EndState) : EndAct → Option (EndState × List EndEv)
  | .ps a =>
    match step s.ps a with
    | none => none
    | some (t, evs) =>
      some ({ s with ps := t }, evs.map .ps ++ match returns s.ps a with
        | some c => [.closed c]
        | none => [])
  | .exit c => if (s.ps.subs c).on ∧ ¬ s.gone c then some ({ s with gone := upd s.gone c true }, [.exited c]) else none

/-- lib/pubsub/ps_channel.go:27-144, core/actor/actor_runtime_impl.go:364-377. -/
def endSys : Lts EndState EndAct EndEv := ⟨⟨init, fun _ => false⟩, endStep⟩

namespace Spec

/-- The subscription of `c` ends before what comes after `h1`: its channel was closed or its actor has exited. -/
def Over (c : Nat) (h1 h2 : List EndEv) (h : List EndEv) : Prop := h = h1 ++ .closed c :: h2 ∨ h = h1 ++ .exited c :: h2

/-- C128: what is published after the end of a subscription does not go to its subscriber. Messages that were published before may
still be on their way. -/
def Ended (h : List EndEv) : Prop := ∀ c h1 h2, Over c h1 h2 h → ∀ m, .ps (.deliver c m) ∈ h2 → .ps (.pub m) ∈ h1

end Spec
end Braid.PubSub
