import Verif.CallTree.WaitSpec

/-
The calls of `Verif/CallTree/Model.lean` with actors that end: the two goroutines that a root call starts (C131).
-/
namespace Braid.CallTree

/-- core/actor/actor_runtime_impl.go:25-42. -/
structure Life where
  base : State
  /-- `closed` is not 0: `Received` refuses (L180) -/
  shut : Nat → Bool
  /-- the loop has returned (L361) -/
  dead : Nat → Bool

/-- What goroutines do. (core/node/system_impl.go:293-361, core/actor/actor_runtime_impl.go:354-361) -/
inductive LifeAct
  | op (a : Act)
  /-- the loop of actor `a` sees the shutdown signal (actor_runtime_impl.go:354-355) -/
  | shut (a : Nat)
  /-- the loop of actor `a` sees that `closeCh` is closed (actor_runtime_impl.go:359-361) -/
  | die (a : Nat)

/-- Everybody lives. (core/actor/actor_runtime_impl.go:52-71) -/
def lifeInit : Life := ⟨init, fun _ => false, fun _ => false⟩

/-- An actor that is shut refuses messages, and one whose loop has ended takes none. When `closeCh` is closed is in
`Verif/Actor`: at the latest after ten seconds, with messages in the mailbox; and before that when the mailbox was empty, which does
not keep a delivery under way from putting a message in later. Here the loop may end at any time between two messages.
(core/actor/actor_runtime_impl.go:180-187, 281-301, 320-361) -/
def lifeStep (s : Life) : LifeAct → Option (Life × List Ev)
  | .op (.go c refuse) =>
    if (s.base.op c).cpc = .recv ∧ s.shut (s.base.op c).act = true ∧ refuse = false then none
    else (step s.base (.go c refuse)).map fun r => ({ s with base := r.1 }, r.2)
  | .op (.take a) =>
    if s.dead a then none else (step s.base (.take a)).map fun r => ({ s with base := r.1 }, r.2)
  | .op a => (step s.base a).map fun r => ({ s with base := r.1 }, r.2)
  | .shut a => some ({ s with shut := upd s.shut a true }, [])
  | .die a => if s.shut a ∧ s.base.busy a = none then some ({ s with dead := upd s.dead a true }, []) else none

/-- core/node/system_impl.go:293-361, core/actor/actor_runtime_impl.go:354-361. -/
def lifeSys : Lts Life LifeAct Ev := ⟨lifeInit, lifeStep⟩

namespace Spec

/-- The steps that goroutines take without new work, with the timeouts of `localCall`, and without the ends of contexts, failures
of remote calls and the ends of actors. -/
def moves : LifeAct → Bool
  | .op (.outer _ true) => true
  | .op a => own a
  | _ => false

/-- Nothing moves any more, and all timeouts are over. -/
def Quiet (s : Life) : Prop := ∀ a, moves a = true → lifeStep s a = none

/-- Is it neither new work, nor `mw.Err` set by user code, nor the end of an actor? -/
def lifeOwn : LifeAct → Bool
  | .op a => !fromUser a
  | _ => false

def lifeBegin : LifeAct → Bool
  | .op a => isBegin a
  | _ => false

/-- The goroutines that call `c` has started and that have not ended: the waiter (L300-321), from its start. -/
def Waiter (s : Life) (c : Nat) : Prop := c < s.base.n ∧ (s.base.op c).outer ∈ [Outer.blocked, .sel, .close]

/-- The goroutine that waits for the group (L304-307) has started and not ended. -/
def GroupWaiter (s : Life) (c : Nat) : Prop := c < s.base.n ∧ (s.base.op c).inner = .waiting

/-- A message with the group of call `c` is in the mailbox of an actor that has ended. -/
def Stranded (s : Life) (c : Nat) : Prop :=
  ∃ e a, e ∈ s.base.queue a ∧ s.dead a = true ∧ (s.base.op e).grp = (s.base.op c).grp

end Spec
end Braid.CallTree
