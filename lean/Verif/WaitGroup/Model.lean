import Verif.Lib.Count

/-
Model of `lib/warpwaitgroup/warpwaitgroup.go` on top of `sync.WaitGroup` (go 1.22), for any number of
goroutines. The atomic operations of `sync.WaitGroup` are single steps: `Add` changes counter and looks at
the waiters in one atomic addition, and if the counter became 0 with waiters it checks in a second step that
the state did not change, resets it and releases the waiters. `Wait` reads the state and registers itself
with a compare-and-swap (one step here, since a swap that fails is repeated), is woken, and checks that the
state is zero. The number of waiters does not overflow.
-/
namespace Braid.WaitGroup

/-- Conversion to `int32`. (lib/warpwaitgroup/warpwaitgroup.go:17) -/
def wrap (x : Int) : Int := x.bmod 4294967296

/-- lib/warpwaitgroup/warpwaitgroup.go:17-26. -/
inductive Pc
  | idle
  /-- L17/L25: about to change `counter` -/
  | add1 (d : Int)
  /-- L20/L26: about to add to the `sync.WaitGroup` -/
  | add2 (d : Int)
  /-- in `sync.WaitGroup.Add`: about to check the state and release `w` waiters -/
  | chk (w : Nat)
  /-- in `Wait`: about to look at the state -/
  | wait
  /-- registered as a waiter -/
  | parked
  /-- woken, about to check the state -/
  | woke
deriving DecidableEq

/-- lib/warpwaitgroup/warpwaitgroup.go:9-13. -/
structure State where
  /-- L12 `counter` -/
  counter : Int
  /-- `sync.WaitGroup`: the counter -/
  v : Int
  /-- `sync.WaitGroup`: the number of waiters -/
  w : Nat
  /-- `sync.WaitGroup`: the semaphore -/
  sem : Nat
  pc : Nat → Pc
  /-- a panic has ended the process -/
  crashed : Bool

/-- What is seen of a run. (lib/warpwaitgroup/warpwaitgroup.go:16-37) -/
inductive Ev
  /-- `Add(d)` is called, or `Done()` with `d = -1` -/
  | call (p : Nat) (d : Int)
  /-- it takes effect on the `sync.WaitGroup` -/
  | eff (p : Nat) (d : Int)
  | ret (p : Nat)
  | waitCall (p : Nat)
  | waitRet (p : Nat)
  /-- `Count()` returns `n` -/
  | count (p : Nat) (n : Int)
  | panic (p : Nat)
deriving DecidableEq

/-- Who takes the next step. (lib/warpwaitgroup/warpwaitgroup.go:16-37) -/
inductive Act
  /-- `Add(d)`; `Done` is `Add(-1)` in both places -/
  | add (p : Nat) (d : Int)
  | wait (p : Nat)
  | count (p : Nat)
  /-- the next step of `p` -/
  | go (p : Nat)
deriving DecidableEq

/-- `sync.WaitGroup.Add`: negative counter, or an `Add` from 0 while there are waiters.
(lib/warpwaitgroup/warpwaitgroup.go:20) -/
def misuse (s : State) (d : Int) : Prop :=
  wrap (s.v + d) < 0 ∨ (s.w ≠ 0 ∧ 0 < d ∧ wrap (s.v + d) = wrap d)

instance (s : State) (d : Int) : Decidable (misuse s d) := by unfold misuse; infer_instance

/-- The next step of `p`. (lib/warpwaitgroup/warpwaitgroup.go:16-37) -/
def go (s : State) (p : Nat) : Option (State × List Ev) :=
  match s.pc p with
  | .idle => none
  | .add1 d => some ({ s with counter := wrap (s.counter + d), pc := upd s.pc p (.add2 d) }, [])
  | .add2 d =>
    if misuse s d then some ({ s with v := wrap (s.v + d), crashed := true }, [.eff p d, .panic p])
    else if wrap (s.v + d) > 0 ∨ s.w = 0 then
      some ({ s with v := wrap (s.v + d), pc := upd s.pc p .idle }, [.eff p d, .ret p])
    else some ({ s with v := wrap (s.v + d), pc := upd s.pc p (.chk s.w) }, [.eff p d])
  | .chk w =>
    if s.v = 0 ∧ s.w = w then some ({ s with w := 0, sem := s.sem + w, pc := upd s.pc p .idle }, [.ret p])
    else some ({ s with crashed := true }, [.panic p])
  | .wait =>
    if s.v = 0 then some ({ s with pc := upd s.pc p .idle }, [.waitRet p])
    else some ({ s with w := s.w + 1, pc := upd s.pc p .parked }, [])
  | .parked =>
    if s.sem = 0 then none
    else some ({ s with sem := s.sem - 1, pc := upd s.pc p .woke }, [])
  | .woke =>
    if s.v = 0 ∧ s.w = 0 then some ({ s with pc := upd s.pc p .idle }, [.waitRet p])
    else some ({ s with crashed := true }, [.panic p])

/-- All steps of the goroutines below `n`. (lib/warpwaitgroup/warpwaitgroup.go:16-37) -/
def step (n : Nat) (s : State) (a : Act) : Option (State × List Ev) :=
  if s.crashed then none else
  match a with
  | .add p d => if p < n ∧ s.pc p = .idle then some ({ s with pc := upd s.pc p (.add1 d) }, [.call p d]) else none
  | .wait p => if p < n ∧ s.pc p = .idle then some ({ s with pc := upd s.pc p .wait }, [.waitCall p]) else none
  | .count p => if p < n ∧ s.pc p = .idle then some (s, [.count p s.counter]) else none
  | .go p => go s p

/-- The zero value. (lib/warpwaitgroup/warpwaitgroup.go:9-13) -/
def init : State := ⟨0, 0, 0, 0, fun _ => .idle, false⟩

/-- The system. (lib/warpwaitgroup/warpwaitgroup.go:16-37) -/
def sys (n : Nat) : Lts State Act Ev := ⟨init, step n⟩

end Braid.WaitGroup
