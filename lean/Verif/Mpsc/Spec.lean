import Verif.Mpsc.Model

/-
What a user of the queue relies on, in terms of the history of `Push` and `Pop` calls and returns.
Nothing here looks at the internals of the queue.
-/
namespace Braid.Mpsc

/-- The (call id, value) pairs returned by `Pop`, in order, without the nil results. -/
def popped {V : Type} : List (Ev V) → List (Nat × V)
  | [] => []
  | .popRet (some r) :: h => r :: popped h
  | _ :: h => popped h

/-- `order` explains the history `h` as the history of a FIFO queue: it lists `Push` calls of `h`
(each once), contains every `Push` that returned, respects real time and the program order of each
producer, and what `Pop` returned is a prefix of it. -/
structure Explains {V : Type} (order : List (Nat × V)) (h : List (Ev V)) : Prop where
  once : (order.map Prod.fst).Nodup
  called : ∀ id x, (id, x) ∈ order → ∃ p, Ev.pushInv p id x ∈ h
  complete : ∀ id, Ev.pushRet id ∈ h → ∃ x, (id, x) ∈ order
  realTime : ∀ a b q y, Before h (Ev.pushRet a) (Ev.pushInv q b y) → (b, y) ∈ order →
    ∃ x, Before order (a, x) (b, y)
  program : ∀ p a x b y, Before h (Ev.pushInv p a x) (Ev.pushInv p b y) → (b, y) ∈ order →
    Before order (a, x) (b, y)
  fifo : popped h <+: order

/-- No `Push` is in progress in `h`: every call has returned. -/
def PushesDone {V : Type} (h : List (Ev V)) : Prop :=
  ∀ p id x, Ev.pushInv p id x ∈ h → Ev.pushRet id ∈ h

/-- Number of calls of `Push` in a schedule. -/
def pushCalls {V : Type} : List (Act V) → Nat
  | [] => 0
  | .push _ _ :: as => pushCalls as + 1
  | _ :: as => pushCalls as

/-- The system whose consumer is the loop `<-q.C; q.Pop()` (core/actor/actor_runtime_impl.go:320-321): it calls `Pop`
only after it has received a token. -/
def loopSys (V : Type) : Lts (St V) (Act V) (Ev V) :=
  ⟨init V, fun s a => match a, s.cons with | .pop, .idle => none | _, _ => step s a⟩

end Braid.Mpsc
