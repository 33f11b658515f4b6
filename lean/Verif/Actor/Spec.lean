import Verif.Actor.Model

/-
What the properties C10-C14 mean, in terms of observable events only.
-/
namespace Braid.Actor.Spec

/-- A piece of user code run by the actor. -/
inductive Task
  | msg (id : Nat)
  | timer (t : Nat)
  | action (id : Nat)
deriving DecidableEq

/-- The event is the start of a task. -/
def begins : Ev → Option Task
  | .start id _ => some (.msg id)
  | .timerStart t => some (.timer t)
  | .actionStart id _ => some (.action id)
  | _ => none

/-- The event is the end of a task. -/
def ends : Ev → Option Task
  | .finish id _ _ => some (.msg id)
  | .timerEnd t => some (.timer t)
  | .actionEnd id _ => some (.action id)
  | _ => none

/-- C10: between the start of a task and the start of the next one, the first one has ended. -/
def OneAtATime (h : List Ev) : Prop :=
  ∀ h1 e1 h2 e2 h3 x y, h = h1 ++ e1 :: h2 ++ e2 :: h3 → begins e1 = some x → begins e2 = some y →
    ∃ e ∈ h2, ends e = some x

/-- The messages whose handling has started, in order. -/
def started (h : List Ev) : List (Nat × Msg) :=
  h.filterMap fun | .start id m => some (id, m) | _ => none

/-- C11: `order` is an order in which the messages entered the mailbox: each once, all messages
accepted are in it, it respects real time and the order of each sender, and handling starts in this order. -/
structure Explains (order : List (Nat × Msg)) (h : List Ev) : Prop where
  once : (order.map Prod.fst).Nodup
  entered : ∀ id m, (id, m) ∈ order → ∃ p, .enter p id m ∈ h
  complete : ∀ p id m, .accepted p id m ∈ h → (id, m) ∈ order
  realTime : ∀ p a x q b y, Before h (.accepted p a x) (.enter q b y) → (b, y) ∈ order →
    Before order (a, x) (b, y)
  program : ∀ p a x b y, Before h (.enter p a x) (.enter p b y) → (b, y) ∈ order →
    Before order (a, x) (b, y)
  fifo : started h <+: order

/-- How many messages of wait group `g` have been accepted. -/
def accepted (g : Nat) (h : List Ev) : Nat :=
  h.countP fun | .accepted _ _ m => m.wg = g | _ => false

/-- How many messages of wait group `g` have been handled. -/
def finished (g : Nat) (h : List Ev) : Nat :=
  h.countP fun | .finish _ m _ => m.wg = g | _ => false

/-- No delivery is under way after `h`: every `Push` has returned. -/
def Settled (h : List Ev) : Prop := ∀ p id m, .enter p id m ∈ h → .accepted p id m ∈ h

/-- Every delivery that entered the mailbox before the delivery of message `id` returned has returned as well. -/
def Unhidden (h : List Ev) (p id : Nat) (m : Msg) : Prop :=
  ∀ q b y, Before h (.enter q b y) (.accepted p id m) → .accepted q b y ∈ h

/-- The actions that come from outside: messages, deliveries of topics, reentry messages, ticks of timers, registrations.
(`Exit` is apart.) -/
def outside : Act → Bool
  | .recv _ _ => true
  | .deliver _ _ => true
  | .rpush _ _ => true
  | .tick _ => true
  | .onEvent _ => true
  | _ => false

/-- How often goroutine `p` began to hand over a message. -/
def calls (p : Nat) (as : List Act) : Nat :=
  as.countP fun | .recv q _ => q = p | .deliver q _ => q = p | _ => false

/-- How often it came back from that, with or without an error. -/
def returns (p : Nat) (h : List Ev) : Nat :=
  h.countP fun | .refused q _ _ => q = p | .accepted q _ _ => q = p | _ => false

end Braid.Actor.Spec
