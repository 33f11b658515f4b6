import Verif.Lib.Lts

/-
Model of `lib/unbounded/unbounded.go`: an unbounded buffer made of a channel of capacity one and a
backlog slice guarded by a mutex.

Any number of goroutines (indexed by `Nat`), one action per atomic operation. The channel can be
received from without holding the mutex, so receives interleave with the critical sections.
-/
namespace Braid.Unbounded

/-- Where a goroutine is (line numbers of lib/unbounded/unbounded.go). (lib/unbounded/unbounded.go:23-47) -/
inductive Pc (T : Type)
  | idle
  /-- received from `Get()` since its last `Load` (lib/pubsub/ps_channel.go:86-90) -/
  | got
  /-- `Put`: lock held (L23), about to test `len(b.backlog) == 0` (L24) -/
  | putCheck (t : T)
  /-- `Put`: backlog was empty, at the select (L25-30) -/
  | putSelect (t : T)
  /-- `Put`: about to append (L32) -/
  | putAppend (t : T)
  /-- `Load`: lock held (L38), about to test `len(b.backlog) > 0` (L39) -/
  | loadCheck
  /-- `Load`: at the select (L40-45) -/
  | loadSelect
  /-- `Load`: sent `b.backlog[0]`, about to drop it from the slice (L42-43) -/
  | loadDrop
  /-- about to unlock and return (L27, L33, L47) -/
  | unlock

/-- lib/unbounded/unbounded.go:9-14 `type Unbounded struct`: `ch` is the channel buffer (capacity 1),
`lock` the goroutine that holds the mutex. -/
structure St (T : Type) where
  ch : Option T
  backlog : List T
  lock : Option Nat
  pc : Nat → Pc T

/-- Observable events: `put` when a `Put` acquires the lock, `recv` when a value is received.
(lib/unbounded/unbounded.go:22-57) -/
inductive Ev (T : Type)
  | put (t : T)
  | recv (t : T)
deriving DecidableEq

/-- lib/unbounded/unbounded.go:21-56. -/
inductive Act (T : Type)
  /-- goroutine `g` calls `Put(t)` and acquires the lock (L22-23) -/
  | put (g : Nat) (t : T)
  /-- goroutine `g` calls `Load()` and acquires the lock (L37-38) -/
  | load (g : Nat)
  /-- goroutine `g` receives from `Get()` -/
  | recv (g : Nat)
  /-- goroutine `g` executes its next operation in its critical section -/
  | next (g : Nat)

/-- lib/unbounded/unbounded.go:17-19 `NewUnbounded`. -/
def init (T : Type) : St T := ⟨none, [], none, fun _ => .idle⟩

/-- The next operation of goroutine `g` inside `Put` (L22-34) or `Load` (L37-48).
(lib/unbounded/unbounded.go:22-48) -/
def stepNext {T : Type} (s : St T) (g : Nat) : Option (St T × List (Ev T)) :=
  match s.pc g with
  | .idle => none
  | .got => none
  | .putCheck t => -- L24
    match s.backlog with
    | [] => some ({ s with pc := upd s.pc g (.putSelect t) }, [])
    | _ :: _ => some ({ s with pc := upd s.pc g (.putAppend t) }, [])
  | .putSelect t => -- L25-30
    match s.ch with
    | none => some ({ s with ch := some t, pc := upd s.pc g .unlock }, [])
    | some _ => some ({ s with pc := upd s.pc g (.putAppend t) }, [])
  | .putAppend t => -- L32
    some ({ s with backlog := s.backlog ++ [t], pc := upd s.pc g .unlock }, [])
  | .loadCheck => -- L39
    match s.backlog with
    | [] => some ({ s with pc := upd s.pc g .unlock }, [])
    | _ :: _ => some ({ s with pc := upd s.pc g .loadSelect }, [])
  | .loadSelect => -- L40-41, L44
    match s.ch, s.backlog with
    | none, b :: _ => some ({ s with ch := some b, pc := upd s.pc g .loadDrop }, [])
    | none, [] => none -- index out of range; shown unreachable
    | some _, _ => some ({ s with pc := upd s.pc g .unlock }, [])
  | .loadDrop => -- L42-43
    some ({ s with backlog := s.backlog.tail, pc := upd s.pc g .unlock }, [])
  | .unlock => -- L27, L33, L47
    some ({ s with lock := none, pc := upd s.pc g .idle }, [])

/-- A goroutine outside of `Put` and `Load`. (lib/unbounded/unbounded.go:21-48) -/
def Pc.outside {T : Type} : Pc T → Bool
  | .idle => true
  | .got => true
  | _ => false

/-- lib/unbounded/unbounded.go:21-56. -/
def step {T : Type} (s : St T) : Act T → Option (St T × List (Ev T))
  | .put g t =>
    match s.pc g, s.lock with
    | .idle, none => some ({ s with lock := some g, pc := upd s.pc g (.putCheck t) }, [.put t])
    | _, _ => none
  | .load g =>
    if (s.pc g).outside then
      match s.lock with
      | none => some ({ s with lock := some g, pc := upd s.pc g .loadCheck }, [])
      | some _ => none
    else none
  | .recv g =>
    if (s.pc g).outside then
      match s.ch with
      | some t => some ({ s with ch := none, pc := upd s.pc g .got }, [.recv t])
      | none => none
    else none
  | .next g => stepNext s g

/-- The system. (lib/unbounded/unbounded.go:17-57) -/
def sys (T : Type) : Lts (St T) (Act T) (Ev T) := ⟨init T, step⟩

/-- lib/unbounded/unbounded.go:55-57 `Len`. -/
def len {T : Type} (s : St T) : Nat := s.backlog.length

end Braid.Unbounded
