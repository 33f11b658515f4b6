import Verif.Lib.Lts

/-
Model of `lib/mpsc/mpsc.go`: the multi-producer single-consumer mailbox queue.

One action per atomic operation of the Go code. Any number of producer goroutines (indexed by
`Nat`), one consumer goroutine. Memory is a heap of nodes addressed by `Nat`; address 0 is the stub.
-/
namespace Braid.Mpsc

/-- lib/mpsc/mpsc.go:14-17 `type node struct { next *node; val interface{} }`.
`none` is the nil pointer / nil interface. -/
structure Node (V : Type) where
  next : Option Nat
  val : Option V

/-- Program counter of a goroutine that may be inside `Push` (lib/mpsc/mpsc.go:39-49), including the
inlined `setCount(1)` (lib/mpsc/mpsc.go:80-88). -/
inductive PPc
  /-- outside of `Push` -/
  | idle
  /-- L40-41 done (node `n` allocated and filled), about to swap `q.head` (L43) -/
  | alloc (n : Nat)
  /-- L43 done, about to store `prev.next = n` (L46) -/
  | link (prev n : Nat)
  /-- L46 done, about to `AddInt32(&q.count, 1)` (L81) -/
  | count (n : Nat)
  /-- L81 done with result `c`, about to test `c > 0` and send without blocking (L82-87), then return -/
  | send (n : Nat) (c : Int)
deriving DecidableEq

/-- Program counter of the consumer goroutine: waiting on `q.C` as in
core/actor/actor_runtime_impl.go:320-321, and inside `Pop` (lib/mpsc/mpsc.go:54-65). -/
inductive CPc (V : Type)
  /-- not inside `Pop`, no token taken since the last `Pop` -/
  | idle
  /-- took a token from `q.C`; has to call `Pop` next (actor_runtime_impl.go:320-321) -/
  | ready
  /-- inside `Pop`, about to load `tail.next` (L55-56) -/
  | load
  /-- L56 loaded the non-nil pointer `n`; about to run L58-60 -/
  | take (n : Nat)
  /-- L58-60 done with value `v` of node `n`; about to `AddInt32(&q.count, -1)` (L61, L81) -/
  | dec (n : Nat) (v : Option V)
  /-- L81 done with result `c`; about to test `c > 0`, send without blocking, return `v` -/
  | send (n : Nat) (v : Option V) (c : Int)

/-- lib/mpsc/mpsc.go:19-23 `type Queue struct` plus the heap and the program counters.
`count` is an `int32` in Go; it is an unbounded `Int` here (fewer than 2^31 pending messages).
`tok` is the buffer of the channel `C` (capacity 1). -/
structure St (V : Type) where
  heap : Nat → Node V
  fresh : Nat
  head : Nat
  tail : Nat
  count : Int
  tok : Option Int
  prods : Nat → PPc
  cons : CPc V

/-- Observable events: invocation and return of `Push` and `Pop`. A `Push` call is identified by
a number `id`; the value returned by `Pop` is labelled with the `id` of the `Push` that supplied the
node (a label for stating properties only). (lib/mpsc/mpsc.go:25-88) -/
inductive Ev (V : Type)
  | pushInv (p : Nat) (id : Nat) (x : V)
  | pushRet (id : Nat)
  | popInv
  | popRet (r : Option (Nat × V))
deriving DecidableEq

/-- lib/mpsc/mpsc.go:39-88. -/
inductive Act (V : Type)
  /-- producer `p` calls `Push(x)`: L40-41 -/
  | push (p : Nat) (x : V)
  /-- producer `p` executes its next atomic operation inside `Push` -/
  | prod (p : Nat)
  /-- the consumer receives from `q.C` -/
  | recv
  /-- the consumer calls `Pop` -/
  | pop
  /-- the consumer executes its next atomic operation inside `Pop` -/
  | cons

/-- lib/mpsc/mpsc.go:25-34 `New`. -/
def init (V : Type) : St V where
  heap := fun _ => ⟨none, none⟩
  fresh := 1
  head := 0
  tail := 0
  count := 0
  tok := none
  prods := fun _ => .idle
  cons := .idle

/-- lib/mpsc/mpsc.go:80-88, the part after `AddInt32`: `if count > 0 { select { case q.C <- count:
default: } }`. -/
def signal (tok : Option Int) (c : Int) : Option Int :=
  if c > 0 then (match tok with | none => some c | some t => some t) else tok

/-- One atomic operation of producer `p` inside `Push` (lib/mpsc/mpsc.go:43-48). -/
def stepProd {V : Type} (s : St V) (p : Nat) : Option (St V × List (Ev V)) :=
  match s.prods p with
  | .idle => none
  | .alloc n => -- L43 prev := atomic.Swap(&q.head, n)
    some ({ s with head := n, prods := upd s.prods p (.link s.head n) }, [])
  | .link prev n => -- L46 atomic.Store(&prev.next, n)
    some ({ s with heap := upd s.heap prev { s.heap prev with next := some n },
                   prods := upd s.prods p (.count n) }, [])
  | .count n => -- L81 count := atomic.AddInt32(&q.count, 1)
    some ({ s with count := s.count + 1, prods := upd s.prods p (.send n (s.count + 1)) }, [])
  | .send n c => -- L82-87, return
    some ({ s with tok := signal s.tok c, prods := upd s.prods p .idle }, [.pushRet n])

/-- One atomic operation of the consumer inside `Pop` (lib/mpsc/mpsc.go:54-65). L58-60 (move
`q.tail`, read and clear the value) touch only consumer-owned data and are one step. -/
def stepCons {V : Type} (s : St V) : Option (St V × List (Ev V)) :=
  match s.cons with
  | .idle => none
  | .ready => none
  | .load => -- L55-57
    match (s.heap s.tail).next with
    | some n => some ({ s with cons := .take n }, [])
    | none => some ({ s with cons := .idle }, [.popRet none]) -- L64
  | .take n => -- L58-60
    some ({ s with tail := n,
                   heap := upd s.heap n { s.heap n with val := none },
                   cons := .dec n (s.heap n).val }, [])
  | .dec n v => -- L61, L81
    some ({ s with count := s.count - 1, cons := .send n v (s.count - 1) }, [])
  | .send n v c => -- L82-87, L62
    some ({ s with tok := signal s.tok c, cons := .idle },
          [.popRet (v.map fun x => (n, x))])

/-- All atomic steps. (lib/mpsc/mpsc.go:39-88) -/
def step {V : Type} (s : St V) : Act V → Option (St V × List (Ev V))
  | .push p x => -- L40-41: n := new(node); n.val = x
    match s.prods p with
    | .idle =>
      some ({ s with heap := upd s.heap s.fresh ⟨none, some x⟩, fresh := s.fresh + 1,
                     prods := upd s.prods p (.alloc s.fresh) }, [.pushInv p s.fresh x])
    | _ => none
  | .prod p => stepProd s p
  | .recv => -- actor_runtime_impl.go:320  case <-a.q.C
    match s.cons, s.tok with
    | .idle, some _ => some ({ s with tok := none, cons := .ready }, [])
    | _, _ => none
  | .pop => -- actor_runtime_impl.go:321  a.q.Pop(); also allowed without a token
    match s.cons with
    | .idle => some ({ s with cons := .load }, [.popInv])
    | .ready => some ({ s with cons := .load }, [.popInv])
    | _ => none
  | .cons => stepCons s

/-- The system. (lib/mpsc/mpsc.go:25-88) -/
def sys (V : Type) : Lts (St V) (Act V) (Ev V) := ⟨init V, step⟩

/-- lib/mpsc/mpsc.go:70-74 `Empty`. -/
def empty {V : Type} (s : St V) : Bool := (s.heap s.tail).next.isNone

/-- lib/mpsc/mpsc.go:76-78 `Count`. -/
def countNow {V : Type} (s : St V) : Int := s.count

end Braid.Mpsc
