import Verif.Lib.Lts

/-
Model of `core/actor/actor_reenter_impl.go`: `Future`.

A heap of futures, any number of goroutines, one action per operation on shared memory.
User goroutines are `Sum.inl u`; the goroutines started by `go callback(...)` are `Sum.inr k`.
User code run inside a callback (which may itself call `Then` and `Complete`) is represented by the
user goroutines: each of them can call any method on any future at any moment.
-/
namespace Braid.Future

/-- A goroutine: one of the program's (`inl`) or one started for a callback (`inr`).
(core/actor/actor_reenter_impl.go:24-57) -/
abbrev Tid := Nat ⊕ Nat

/-- core/actor/actor_reenter_impl.go:11-16 `type Future struct`.
`result = none` is a result never assigned. A pending callback is the registration it belongs to and
the future that is completed after it (the closure of L34-37). -/
structure Fut (V : Type) where
  result : Option V
  done : Bool
  cbs : List (Nat × Nat)
  lock : Option Tid

/-- core/actor/actor_reenter_impl.go:18-22 `NewFuture`. -/
def newFut (V : Type) : Fut V := ⟨none, false, [], none⟩

/-- A goroutine started at L29 (`child = none`: `go callback(f.result)`) or at L54
(`child = some c`: the closure of L34-37 with `newFuture = c`), with its argument.
(core/actor/actor_reenter_impl.go:29-54) -/
structure Task (V : Type) where
  reg : Nat
  arg : V
  child : Option Nat

/-- Where a goroutine is (line numbers of core/actor/actor_reenter_impl.go).
(core/actor/actor_reenter_impl.go:25-56) -/
inductive Pc (V : Type)
  | idle
  /-- `Then`: lock held (L25), about to test `IsCompleted` (L28) -/
  | thenCheck (f reg : Nat)
  /-- `Then`: about to start the callback (L29) -/
  | thenLate (f reg : Nat)
  /-- `Then`: about to return a new future (L30) -/
  | thenNew (f reg : Nat)
  /-- `Then`: about to make a new future and append the closure (L33-37) -/
  | thenAppend (f reg : Nat)
  /-- deferred unlock (L26, L44) -/
  | unlock (f : Nat)
  /-- `Complete`: lock held (L43), about to test `IsCompleted` (L46) -/
  | compCheck (f : Nat) (v : V)
  /-- `Complete`: about to set the result (L50) -/
  | compSet (f : Nat) (v : V)
  /-- `Complete`: about to close `done` (L51) -/
  | compClose (f : Nat) (v : V)
  /-- `Complete`: in the loop (L53-55), `rest` still to be started; then L56 -/
  | compSpawn (f : Nat) (rest : List (Nat × Nat))
  /-- callback goroutine: not yet running -/
  | ready
  /-- callback goroutine: inside the callback (L35) -/
  | running
  /-- callback goroutine: about to lock the new future in its `Complete` (L36, L43) -/
  | joining

/-- The state. (core/actor/actor_reenter_impl.go:11-16) -/
structure St (V : Type) where
  fut : Nat → Fut V
  /-- number of futures allocated -/
  nfut : Nat
  /-- number of `Then` calls so far -/
  nreg : Nat
  tasks : List (Task V)
  pc : Tid → Pc V

/-- What is seen of a run. (core/actor/actor_reenter_impl.go:18-66) -/
inductive Ev (V : Type)
  /-- the `Then` call number `reg` on future `f` takes the lock -/
  | then_ (reg f : Nat)
  /-- the `Then` call number `reg` returns future `c` -/
  | child (reg c : Nat)
  /-- a `Complete(v)` call on `f` by goroutine `t` takes the lock -/
  | complete (t : Tid) (f : Nat) (v : V)
  /-- the callback given to `Then` call number `reg` is started with argument `v` -/
  | start (reg : Nat) (v : V)
  /-- that callback returns -/
  | finish (reg : Nat) (v : V)
  /-- `IsCompleted()` on `f` returned `b` -/
  | obs (f : Nat) (b : Bool)

/-- core/actor/actor_reenter_impl.go:59-66. -/
inductive Act (V : Type)
  /-- `NewFuture()` -/
  | new
  /-- user goroutine `u` calls `f.Then(callback)` and takes the lock -/
  | then_ (u f : Nat)
  /-- user goroutine `u` calls `f.Complete(v)` and takes the lock -/
  | complete (u f : Nat) (v : V)
  /-- somebody calls `f.IsCompleted()` (lock-free, L59-66) -/
  | isCompleted (f : Nat)
  /-- goroutine `t` performs its next operation -/
  | next (t : Tid)

/-- No future yet. (core/actor/actor_reenter_impl.go:18-22) -/
def init (V : Type) : St V := ⟨fun _ => newFut V, 0, 0, [], fun _ => .idle⟩

variable {V : Type}

/-- Stores a future. (core/actor/actor_reenter_impl.go:11-16) -/
def setFut (s : St V) (f : Nat) (x : Fut V) : St V := { s with fut := upd s.fut f x }
/-- Moves a goroutine on. (core/actor/actor_reenter_impl.go:24-57) -/
def setPc (s : St V) (t : Tid) (p : Pc V) : St V := { s with pc := upd s.pc t p }

/-- `go closure`: a new goroutine with the captured values `k`. (core/actor/actor_reenter_impl.go:24-57) -/
def spawn (s : St V) (k : Task V) : St V :=
  { s with tasks := s.tasks ++ [k], pc := upd s.pc (.inr s.tasks.length) .ready }

/-- The next operation of goroutine `t`. (core/actor/actor_reenter_impl.go:26-56) -/
def stepNext (s : St V) (t : Tid) : Option (St V × List (Ev V)) :=
  match s.pc t with
  | .idle => none
  | .thenCheck f r => -- L28
    if (s.fut f).done then some (setPc s t (.thenLate f r), [])
    else some (setPc s t (.thenAppend f r), [])
  | .thenLate f r => -- L29
    match (s.fut f).result with
    | some v => some (setPc (spawn s ⟨r, v, none⟩) t (.thenNew f r), [])
    | none => none -- the callback would be started with a nil result; shown unreachable
  | .thenNew f r => -- L30
    some (setPc { s with fut := upd s.fut s.nfut (newFut V), nfut := s.nfut + 1 } t (.unlock f),
      [.child r s.nfut])
  | .thenAppend f r => -- L33-37
    some (setPc (setFut { s with fut := upd s.fut s.nfut (newFut V), nfut := s.nfut + 1 } f
      { s.fut f with cbs := (s.fut f).cbs ++ [(r, s.nfut)] }) t (.unlock f), [.child r s.nfut])
  | .unlock f => -- L26, L44
    some (setPc (setFut s f { s.fut f with lock := none }) t .idle, [])
  | .compCheck f v => -- L46-48
    if (s.fut f).done then some (setPc s t (.unlock f), [])
    else some (setPc s t (.compSet f v), [])
  | .compSet f v => -- L50
    some (setPc (setFut s f { s.fut f with result := some v }) t (.compClose f v), [])
  | .compClose f _ => -- L51, L53
    some (setPc (setFut s f { s.fut f with done := true }) t (.compSpawn f (s.fut f).cbs), [])
  | .compSpawn f [] => -- L56
    some (setPc (setFut s f { s.fut f with cbs := [] }) t (.unlock f), [])
  | .compSpawn f ((r, c) :: rest) => -- L53-54
    match (s.fut f).result with
    | some v => some (setPc (spawn s ⟨r, v, some c⟩) t (.compSpawn f rest), [])
    | none => none -- shown unreachable
  | .ready => -- the goroutine starts
    match t with
    | .inl _ => none
    | .inr k =>
      match s.tasks[k]? with
      | some tk => some (setPc s t .running, [.start tk.reg tk.arg])
      | none => none
  | .running => -- the callback returns (L35)
    match t with
    | .inl _ => none
    | .inr k =>
      match s.tasks[k]? with
      | some tk =>
        match tk.child with
        | none => some (setPc s t .idle, [.finish tk.reg tk.arg])
        | some _ => some (setPc s t .joining, [.finish tk.reg tk.arg])
      | none => none
  | .joining => -- L36, L43
    match t with
    | .inl _ => none
    | .inr k =>
      match s.tasks[k]? with
      | some ⟨_, v, some c⟩ =>
        match (s.fut c).lock with
        | none => some (setPc (setFut s c { s.fut c with lock := some t }) t (.compCheck c v),
            [.complete t c v])
        | some _ => none
      | _ => none

/-- The steps. (core/actor/actor_reenter_impl.go:18-66) -/
def step (s : St V) : Act V → Option (St V × List (Ev V))
  | .new => some ({ s with fut := upd s.fut s.nfut (newFut V), nfut := s.nfut + 1 }, [])
  | .then_ u f =>
    if f < s.nfut then
      match s.pc (.inl u), (s.fut f).lock with
      | .idle, none =>
        some (setPc (setFut { s with nreg := s.nreg + 1 } f { s.fut f with lock := some (.inl u) })
          (.inl u) (.thenCheck f s.nreg), [.then_ s.nreg f])
      | _, _ => none
    else none
  | .complete u f v =>
    if f < s.nfut then
      match s.pc (.inl u), (s.fut f).lock with
      | .idle, none =>
        some (setPc (setFut s f { s.fut f with lock := some (.inl u) }) (.inl u) (.compCheck f v),
          [.complete (.inl u) f v])
      | _, _ => none
    else none
  | .isCompleted f => some (s, [.obs f (s.fut f).done])
  | .next t => stepNext s t

/-- The system. (core/actor/actor_reenter_impl.go:18-66) -/
def sys (V : Type) : Lts (St V) (Act V) (Ev V) := ⟨init V, step⟩

end Braid.Future
