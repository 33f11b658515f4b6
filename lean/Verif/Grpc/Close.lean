import Verif.Lib.Lts

/-
Model of `closeconn` of the gRPC client: `lib/grpc/client.go:75-95`. Nothing in the repository calls it.

Any number of calls, each with its goroutine. How long `conn.Close` takes and what it returns, and when the three
seconds of the context are over, is chosen by the environment. Go's `select` takes any of the cases that are ready.

Simplified: errors are represented by whether there is one; the output of L92 is left out, and so is the `cancel` of
L77, which acts after the answer.
-/
namespace Braid.Grpc.Close

/-- What a call returns. (lib/grpc/client.go:88-94) -/
inductive Res
  /-- L90 -/
  | timedOut
  /-- L93; `err`: `conn.Close` returned an error -/
  | closed (err : Bool)
deriving DecidableEq

/-- The goroutine of the caller. (lib/grpc/client.go:75-95) -/
inductive Main
  | idle
  /-- L88 -/
  | waiting
  | answered (r : Res)
deriving DecidableEq

/-- The goroutine started at L80. (lib/grpc/client.go:80-86) -/
inductive Worker
  | none
  /-- L82 -/
  | closing
  /-- L85 -/
  | sending (err : Bool)
  | ended
deriving DecidableEq

/-- All calls. (lib/grpc/client.go:75-95) -/
structure State where
  main : Nat → Main
  worker : Nat → Worker
  /-- the context of the call is done -/
  expired : Nat → Bool

/-- Before any call. (lib/grpc/client.go:75-75) -/
def init : State := ⟨fun _ => .idle, fun _ => .none, fun _ => false⟩

/-- What is seen of a run. (lib/grpc/client.go:75-95) -/
inductive Ev
  | started (g : Nat)
  /-- `conn.Close` returned -/
  | closed (g : Nat) (err : Bool)
  /-- the three seconds are over -/
  | expired (g : Nat)
  | answered (g : Nat) (r : Res)
  /-- the goroutine of L80 ended -/
  | ended (g : Nat)
deriving DecidableEq

/-- lib/grpc/client.go:75-95. -/
inductive Act
  | start (g : Nat)
  | close (g : Nat) (err : Bool)
  | expire (g : Nat)
  /-- the first case of the select -/
  | timeout (g : Nat)
  /-- the second case, together with the send of L85: `doneCh` has no buffer -/
  | receive (g : Nat)

/-- lib/grpc/client.go:75-95. -/
def step (s : State) : Act → Option (State × List Ev)
  | .start g =>
    if s.main g = .idle then -- L76-86
      some ({ s with main := upd s.main g .waiting, worker := upd s.worker g .closing }, [.started g])
    else none
  | .close g err =>
    if s.worker g = .closing then -- L82-84
      some ({ s with worker := upd s.worker g (.sending err) }, [.closed g err])
    else none
  | .expire g =>
    if s.main g ≠ .idle ∧ s.expired g = false then some ({ s with expired := upd s.expired g true }, [.expired g])
    else none
  | .timeout g =>
    if s.main g = .waiting ∧ s.expired g = true then -- L89-90
      some ({ s with main := upd s.main g (.answered .timedOut) }, [.answered g .timedOut])
    else none
  | .receive g =>
    match s.main g, s.worker g with
    | .waiting, .sending err => -- L85, L91-93
      some ({ s with main := upd s.main g (.answered (.closed err)), worker := upd s.worker g .ended },
        [.answered g (.closed err), .ended g])
    | _, _ => none

/-- The system. (lib/grpc/client.go:75-95) -/
def sys : Lts State Act Ev := ⟨init, step⟩

end Braid.Grpc.Close
