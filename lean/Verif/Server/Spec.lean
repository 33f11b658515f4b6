import Verif.Server.Model

/-
Specification of the server.
-/
namespace Braid.Server.Spec

/-- The interceptors that the options name, in order. -/
def unaryOf (opts : List Opt) : List Icpt := opts.flatMap fun | .unary l => l | _ => []
def streamOf (opts : List Opt) : List Icpt := opts.flatMap fun | .stream i => [i] | _ => []

/-- The value of the last option of a kind. -/
def lastOf {α : Type} (sel : Opt → Option α) (d : α) (opts : List Opt) : α := ((opts.filterMap sel).getLast?).getD d

def selListen : Opt → Option String
  | .listen a => some a
  | _ => none

def selHandler : Opt → Option (Option Nat)
  | .handler h => some h
  | _ => none

/-- A call passes the interceptors in order, then the handler, and back. -/
def Passed (is : List Icpt) (r : Res) : Trace :=
  (is.map (fun i => .enter i.id) ++ [.handler] ++ is.reverse.map (fun i => .exit i.id), r)

/-- The call goes through the interceptors `is` in order, up to the first that rejects it. -/
def Rejected (before : List Icpt) (i : Icpt) : Trace :=
  (before.map (fun i => .enter i.id) ++ [.enter i.id, .exit i.id] ++ before.reverse.map (fun i => .exit i.id), .err)

/-- Calls that are running. -/
def running (h : List LEv) : Int := h.count .callStart - h.count .callEnd

/-- What the goroutine of `Run` can still do. -/
def AtRest (gr : Bool) (s : State) : Prop := ∀ k, step gr s (.g k) = none

end Braid.Server.Spec
