import Verif.Lib.Lts

/-
Model of the distributed lock (`lib/dismutex/dismutex.go`): any number of goroutines on any number of
machines, one Redis server with expiring keys, and a clock.

The values drawn by `Lock` (16 random bytes) are assumed to be new each time, and a goroutine does not
present to `Unlock` a value drawn by another one (it cannot guess it); it may make up values. A pause lasts at least as
long as the code says; a command takes effect and is answered at one moment.
-/
namespace Braid.DisMutex

/-- dismutex.go:16 `Expiry`: ten seconds, in milliseconds. -/
def expiry : Nat := 10000

/-- dismutex.go:19 `Tries`. -/
def tries : Nat := 4

/-- dismutex.go:22 `Delay`, in milliseconds. -/
def delay : Nat := 700

/-- Where a goroutine is. (lib/dismutex/dismutex.go:31-66) -/
inductive Pc
  | idle
  /-- dismutex.go:44-50: about to make the attempt number `i`, after a pause that lasts until `wake`. -/
  | trying (key value : String) (i wake : Nat)
  /-- dismutex.go:46-47: SETNX succeeded at time `at_` and the reply arrived. -/
  | won (key value : String) (at_ : Nat)
  /-- dismutex.go:63: about to run the script. -/
  | unlocking (key value : String)
deriving DecidableEq

/-- What happens to a command sent to Redis. (lib/dismutex/dismutex.go:31-66) -/
inductive Net
  /-- executed, and the reply arrives -/
  | ok
  /-- executed, but the reply is lost: an error -/
  | lost
  /-- not executed: an error -/
  | failed
deriving DecidableEq

/-- What came of an attempt. (lib/dismutex/dismutex.go:45-46) -/
inductive Tried
  /-- the key was free; it is set, and the reply arrives -/
  | got
  /-- the key was free; it is set, and the reply is lost -/
  | lost
  /-- the key was there -/
  | taken
  /-- an error; nothing has changed -/
  | noReply
deriving DecidableEq

/-- The keys of Redis and the goroutines. (lib/dismutex/dismutex.go:31-66) -/
structure State where
  now : Nat
  /-- value and expiry time of each key -/
  store : String → Option (String × Nat)
  /-- who drew or made up each value -/
  owner : String → Option Nat
  pc : Nat → Pc

/-- What is seen of a run. (lib/dismutex/dismutex.go:31-66) -/
inductive Ev
  | lockCall (c : Nat) (key value : String) (now : Nat)
  /-- `Lock` returned `value`; Redis had set the key at time `at_`. -/
  | locked (c : Nat) (key value : String) (at_ now : Nat)
  /-- an attempt of `Lock` -/
  | tried (c : Nat) (key value : String) (at_ : Nat) (r : Tried)
  /-- `Lock` returned an error (`value` was drawn by it; empty for an empty key) -/
  | lockFailed (c : Nat) (key value : String) (now : Nat)
  | unlockCall (c : Nat) (key value : String)
  | unlocked (c : Nat) (key value : String) (result : Bool)
deriving DecidableEq

/-- Who takes the next step. (lib/dismutex/dismutex.go:31-66) -/
inductive Act
  | tick (d : Nat)
  | lock (c : Nat) (key value : String)
  | attempt (c : Nat) (net : Net)
  | ret (c : Nat)
  | unlock (c : Nat) (key value : String)
  | script (c : Nat) (net : Net)

/-- What a command sees of a key at a time: expired keys are gone. (lib/dismutex/dismutex.go:31-66) -/
def live (store : String → Option (String × Nat)) (now : Nat) (key : String) : Option String :=
  match store key with
  | none => none
  | some (v, e) => if now < e then some v else none

/-- Before the first call. (lib/dismutex/dismutex.go:31-66) -/
def init : State := ⟨0, fun _ => none, fun _ => none, fun _ => .idle⟩

/-- One step. (lib/dismutex/dismutex.go:33-53) -/
def step (s : State) : Act → Option (State × List Ev)
  | .tick d => some ({ s with now := s.now + d }, [])
  -- dismutex.go:31-43 `Lock`: the value is drawn
  | .lock c key value =>
    if s.pc c ≠ .idle then none
    else if key = "" then some (s, [.lockFailed c key "" s.now]) -- L33-35
    else if s.owner value ≠ none ∨ value = "" then none -- random and new
    else some ({ s with owner := upd s.owner value (some c), pc := upd s.pc c (.trying key value 0 s.now) },
      [.lockCall c key value s.now])
  -- dismutex.go:44-53: one attempt
  | .attempt c net =>
    match s.pc c with
    | .trying key value i wake =>
      if s.now < wake then none -- L50
      else if tries ≤ i then
        some ({ s with pc := upd s.pc c .idle }, [.lockFailed c key value s.now]) -- L53
      else
        match live s.store s.now key, net with
        | none, .ok => -- L46
          some ({ s with store := upd s.store key (some (value, s.now + expiry)), pc := upd s.pc c (.won key value s.now) },
            [.tried c key value s.now .got])
        | none, .lost =>
          some ({ s with store := upd s.store key (some (value, s.now + expiry)),
                         pc := upd s.pc c (.trying key value (i + 1) (s.now + delay)) },
            [.tried c key value s.now .lost])
        | some _, .ok =>
          some ({ s with pc := upd s.pc c (.trying key value (i + 1) (s.now + delay)) },
            [.tried c key value s.now .taken])
        | _, _ =>
          some ({ s with pc := upd s.pc c (.trying key value (i + 1) (s.now + delay)) },
            [.tried c key value s.now .noReply])
    | _ => none
  -- dismutex.go:47
  | .ret c =>
    match s.pc c with
    | .won key value t => some ({ s with pc := upd s.pc c .idle }, [.locked c key value t s.now])
    | _ => none
  -- dismutex.go:57-61 `Unlock`
  | .unlock c key value =>
    if s.pc c ≠ .idle then none
    else if value = "" then some (s, [.unlocked c key value false])
    else if s.owner value ≠ none ∧ s.owner value ≠ some c then none -- cannot be guessed
    else some ({ s with owner := upd s.owner value (some c), pc := upd s.pc c (.unlocking key value) },
      [.unlockCall c key value])
  -- dismutex.go:63-73: the script
  | .script c net =>
    match s.pc c with
    | .unlocking key value =>
      let mine := live s.store s.now key = some value
      let store := if mine ∧ net ≠ .failed then upd s.store key none else s.store
      some ({ s with store := store, pc := upd s.pc c .idle },
        [.unlocked c key value (decide (mine ∧ net = .ok))])
    | _ => none

/-- The distributed lock. (lib/dismutex/dismutex.go:31-66) -/
def sys : Lts State Act Ev := ⟨init, step⟩

end Braid.DisMutex
