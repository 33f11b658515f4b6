import Verif.Lib.Lts

/-
Model of `lib/span/span_grpc.go` (interceptors that carry the trace of a remote call in its metadata) and of
`lib/span/span_call.go` (the span of a call).

Simplifications: a span is known by a number, which is also its context; a tracer writes one key with one value (baggage
is left out) and reads it back; keys of metadata are in lower case, as `metadata.FromOutgoingContext` makes them. Maps
of metadata are in a heap, so that two variables may name one map.
-/
namespace Braid.Span

/-- Metadata of gRPC. (lib/span/span_grpc.go:16-18) -/
abbrev Md := String → List String

/-- The tracer, as far as the interceptors use it: `Inject` writes `enc` of the span under `key`; `Extract` reads the
values of `key` in order, fails if one cannot be decoded, and otherwise returns the last. `lower` is `strings.ToLower`.
(lib/span/span_grpc.go:39-113) -/
structure Tracer where
  key : String
  enc : Nat → String
  dec : String → Option Nat
  lower : String → String
  /-- `Inject` succeeds -/
  injects : Bool

/-- A span: its number, its parent, and whether it is of the client, of the server or of a system call.
(lib/span/span_grpc.go:39-113) -/
inductive Kind
  | client | server | call
deriving DecidableEq

/-- A span. (lib/span/span_grpc.go:39-113) -/
structure Span where
  id : Nat
  parent : Option Nat
  kind : Kind
deriving DecidableEq

/-- The maps, the next free address, and the spans started so far. (lib/span/span_grpc.go:39-113) -/
structure State where
  heap : Nat → Md
  free : Nat
  spans : List Span
  nextSpan : Nat

/-- A new map with the contents of `m`. (lib/span/span_grpc.go:39-83) -/
def alloc (s : State) (m : Md) : State × Nat := ({ s with heap := upd s.heap s.free m, free := s.free + 1 }, s.free)

/-- `span_grpc.go` L33-36 `Set`. (lib/span/span_grpc.go:33-36) -/
def set (tr : Tracer) (s : State) (a : Nat) (key val : String) : State :=
  { s with heap := upd s.heap a (upd (s.heap a) (tr.lower key) (s.heap a (tr.lower key) ++ [val])) }

/-- `StartSpan`. (lib/span/span_grpc.go:39-113) -/
def startSpan (s : State) (parent : Option Nat) (k : Kind) : State × Nat :=
  ({ s with spans := s.spans ++ [⟨s.nextSpan, parent, k⟩], nextSpan := s.nextSpan + 1 }, s.nextSpan)

/-- `metadata.FromOutgoingContext`: a copy of the map of the context, if it has one. (lib/span/span_grpc.go:39-83) -/
def fromOutgoing (s : State) (md : Option Nat) : State × Option Nat :=
  match md with
  | none => (s, none)
  | some a => ((alloc s (s.heap a)).1, some (alloc s (s.heap a)).2)

/-- `span_grpc.go` L39-82 `ClientInterceptor`: the span in the context, if any, and the address of its outgoing
metadata, if any. The result is the new state, the span, and the address of the metadata sent.
(lib/span/span_grpc.go:39-82) -/
def client (tr : Tracer) (s : State) (root : Option Nat) (md : Option Nat) : State × Nat × Nat :=
  let (s1, span) := startSpan s root .client                        -- L54-62
  let (s2, out) := fromOutgoing s1 md                               -- L66
  let (s3, a) := match out with
    | none => alloc s2 (fun _ => [])                                -- L68
    | some b => alloc s2 (s2.heap b)                                -- L70
  if tr.injects then (set tr s3 a tr.key (tr.enc span), span, a)    -- L73-79
  else (s3, span, a)

/-- `Extract` of the tracer: an error, nothing found, or a span context. (lib/span/span_grpc.go:98-99) -/
inductive Extract
  | error
  | notFound
  | found (c : Nat)
deriving DecidableEq

/-- `Extract`. (lib/span/span_grpc.go:98-99) -/
def extract (tr : Tracer) (m : Md) : Extract :=
  if (m (tr.lower tr.key)).any fun v => (tr.dec v).isNone then .error
  else match (m (tr.lower tr.key)).getLast? with
    | none => .notFound
    | some v => match tr.dec v with
      | none => .error
      | some c => .found c

/-- What gRPC carries: all keys but its own. (lib/span/span_grpc.go:39-113) -/
def carry (reserved : String → Bool) (m : Md) : Md := fun k => if reserved k then [] else m k

/-- `span_grpc.go` L85-114 `ServerInterceptor`: the span given to the handler, if any.
(lib/span/span_grpc.go:85-114) -/
def server (tr : Tracer) (s : State) (m : Md) : State × Option Nat :=
  match extract tr m with
  | .error => (s, none)
  | .notFound => ((startSpan s none .server).1, some (startSpan s none .server).2)
  | .found c => ((startSpan s (some c) .server).1, some (startSpan s (some c) .server).2)

/-! ### `span_call.go` -/

/-- L19-25 `SystemCallTracer`. (lib/span/span_call.go:19-25) -/
structure Call where
  span : Option Nat
  starting : Bool

/-- The calls. (lib/span/span_call.go:51-99) -/
inductive Op
  /-- `Begin(ctx)` with a context that holds the span `parent`, or none -/
  | begin (parent : Option Nat)
  /-- `Begin(ctx)` with something that is no context -/
  | beginBad
  | fin
deriving DecidableEq

/-- What is seen of them. (lib/span/span_call.go:51-99) -/
inductive Ev
  | started (id : Nat) (parent : Option Nat)
  | finished (id : Nat)
deriving DecidableEq

/-- The tracer object and the number of the next span. (lib/span/span_call.go:18-24) -/
structure CState where
  call : Call
  next : Nat

/-- L51-72 `Begin` and L91-100 `End`. (lib/span/span_call.go:51-100) -/
def callStep (s : CState) : Op → Option (CState × List Ev)
  | .begin p => some (⟨⟨some s.next, true⟩, s.next + 1⟩, [.started s.next p])
  | .beginBad => some (s, [])
  | .fin =>
    if !s.call.starting then some (s, [])
    else match s.call.span with
      | some i => some (s, [.finished i])
      | none => some (s, [])

/-- L28-48: a new tracer object. (lib/span/span_call.go:28-48) -/
def callSys : Lts CState Op Ev := ⟨⟨⟨none, false⟩, 0⟩, callStep⟩

end Braid.Span
