import Verif.Lib.Lts

/-
Model of how the spans of calls come to their parents: `NormalSystem.Call` and `Send` put the span they start into the
context of the wrapper (core/node/system_impl.go:207-219, 373-385; lib/span/span_call.go:51-72), and `NewBuilder` and `Swap`
make wrappers from contexts (router/msg/msg.go:47-82).

Simplifications: the node has a tracer with a factory for the spans of calls, so that every call has a span, with the same
number. Of a context only the spans in it are kept. A call to another node is one call here (the way of the span over the
wire is `Verif/Span`). Which code makes a call is given by the call for which it runs, if any: a handler, or a callback.
-/
namespace Braid.Trace

/-- What code does with wrappers. (core/node/system_impl.go:197-219, 363-385, router/msg/msg.go:47-82) -/
inductive Act
  /-- `NewBuilder(context.Background())` -/
  | fresh
  /-- `NewBuilder(mw.Ctx)` or `Swap(mw)` with wrapper `w` -/
  | derive (w : Nat)
  /-- `Call` or `Send` with wrapper `w`, by code that runs for call `p` -/
  | call (w : Nat) (p : Option Nat)
  /-- call `c` returns -/
  | ret (c : Nat)
deriving DecidableEq

/-- What is seen: wrappers that are made, from the context of another one or from none; spans that are started, with the
wrapper, the call for which the code runs, and the parent; spans that are finished.
(core/node/system_impl.go:207-219, router/msg/msg.go:47-82) -/
inductive Ev
  | made (w : Nat) (src : Option Nat)
  | started (c w : Nat) (p : Option Nat) (parent : Option Nat)
  | finished (c : Nat)
deriving DecidableEq

/-- The wrappers made so far, the spans in the context of each, innermost first, the calls made so far, and those that have
not returned. (core/node/system_impl.go:207-219, router/msg/msg.go:20-28) -/
structure State where
  wrappers : Nat
  ctx : Nat → List Nat
  calls : Nat
  isOpen : Nat → Bool

/-- The steps. (core/node/system_impl.go:207-219, 373-385, lib/span/span_call.go:51-72, 91-100, router/msg/msg.go:47-82) -/
def step (s : State) : Act → Option (State × List Ev)
  | .fresh => some ({ s with wrappers := s.wrappers + 1, ctx := upd s.ctx s.wrappers [] }, [.made s.wrappers none])
  | .derive w =>
    if w < s.wrappers then
      some ({ s with wrappers := s.wrappers + 1, ctx := upd s.ctx s.wrappers (s.ctx w) }, [.made s.wrappers (some w)])
    else none
  | .call w p => -- system_impl.go:210: `mw.Ctx = span.Begin(mw.Ctx)`
    if w < s.wrappers ∧ ∀ q, p = some q → q < s.calls then
      some ({ s with
        ctx := upd s.ctx w (s.calls :: s.ctx w)
        calls := s.calls + 1
        isOpen := upd s.isOpen s.calls true }, [.started s.calls w p (s.ctx w).head?])
    else none
  | .ret c => -- L218: `defer span.End(mw.Ctx)`; the context stays as it is
    if s.isOpen c then some ({ s with isOpen := upd s.isOpen c false }, [.finished c]) else none

/-- Before the first wrapper. (core/node/system_impl.go:46-89) -/
def init : State := ⟨0, fun _ => [], 0, fun _ => false⟩

/-- The system. (core/node/system_impl.go:197-219) -/
def sys : Lts State Act Ev := ⟨init, step⟩

end Braid.Trace
