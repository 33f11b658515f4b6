/-
Model of the tracer (`lib/tracer/jaegertracing.go`, `lib/tracer/opts.go`) and of the traced MongoDB collection
(`3rd/mgo/collection.go`, and `Collection` of `3rd/mgo/mgr.go` L66-78).

Simplifications: a span factory is a number, and whether it makes a span or fails is given as a function; numbers stand
for the sampling rate and the durations. Filters and documents are numbers. The options of operations are left out. Making the
transport and the tracer of Jaeger succeeds (`BuildWithOption` panics otherwise).
-/
namespace Braid.Tracing

/-! ### The tracer -/

/-- opts.go:11-20 `Parm`. -/
structure Parm where
  name : String
  endpoint : String
  agent : String
  rate : Nat
  sampler : String
  slowRequest : Nat
  slowSpan : Nat
  factories : List (String × Nat)
deriving DecidableEq

/-- opts.go:25-79. -/
inductive Opt
  | serviceName (s : String)
  | probabilistic (n : Nat)
  | samplerType (s : String)
  | slowRequest (n : Nat)
  | slowSpan (n : Nat)
  | http (s : String)
  | udp (s : String)
  | factories (l : List (String × Nat))
deriving DecidableEq

/-- One option. (lib/tracer/opts.go:25-79) -/
def applyOpt (p : Parm) : Opt → Parm
  | .serviceName s => { p with name := s }
  | .probabilistic n => { p with rate := n }
  | .samplerType s => { p with sampler := s }
  | .slowRequest n => { p with slowRequest := n }
  | .slowSpan n => { p with slowSpan := n }
  | .http s => { p with endpoint := s }
  | .udp s => { p with agent := s }
  | .factories l => { p with factories := p.factories ++ l }

/-- jaegertracing.go:73-77: the loop that fills the map of factories. -/
def fill (m : String → Option Nat) : List (String × Nat) → String → Option Nat
  | [] => m
  | v :: vs =>
    match m v.1 with
    | none => fill (fun k => if k = v.1 then some v.2 else m k) vs
    | some _ => fill m vs

/-- How spans are sent (jaegertracing.go:26-37). -/
inductive Transport
  | http (endpoint : String)
  | udp (agent : String)
deriving DecidableEq

/-- lib/tracer/jaegertracing.go:103-112. -/
structure Tracer where
  serviceName : String
  sampler : String
  rate : Nat
  transport : Transport
  /-- rate of the reporter (jaegertracing.go:84) -/
  reporterRate : Nat
  factory : String → Option Nat

/-- jaegertracing.go:39-96 `BuildWithOption`. -/
def build (opts : List Opt) : Tracer :=
  let p := opts.foldl applyOpt ⟨"braid", "", "", 1, "const", 200, 50, []⟩
  { serviceName := p.name
    sampler := p.sampler
    rate := p.rate
    transport := if p.endpoint ≠ "" then .http p.endpoint else .udp p.agent
    reporterRate := p.rate
    factory := fill (fun _ => none) p.factories }

/-- The errors of `GetSpan`. (lib/tracer/jaegertracing.go:114-127) -/
inductive SpanErr
  | notExist
  | factory
deriving DecidableEq

/-- jaegertracing.go:114-127 `GetSpan`: the factory whose span it is, or an error; `works` says which factories make
spans. -/
def getSpan (works : Nat → Bool) (t : Tracer) (strategy : String) : Except SpanErr Nat :=
  match t.factory strategy with
  | none => .error .notExist
  | some f => if works f then .ok f else .error .factory

/-! ### The collection -/

/-- The methods of `LCollection`. (3rd/mgo/collection.go:47-204) -/
inductive Op
  | find | count | findOne | updateOne | insertOne | insertMany | deleteOne | setTTL | createIndexes | indexList
  | deleteOneIndex | deleteMany | replaceOne | findOneAndUpdate | aggregate | countDocuments | bulkWrite
deriving DecidableEq

/-- The arguments of an operation, `none` for nil: the filter, the documents (also the update, the pipeline, the models of
`BulkWrite`), and the models or the name of indexes. (3rd/mgo/collection.go:47-204) -/
structure Args where
  filter : Option Nat
  document : Option Nat
  index : Nat
deriving DecidableEq

/-- The value of a tag. (3rd/mgo/collection.go:19-45) -/
inductive Val
  | coll
  | text (s : String)
  | arg (n : Nat)
  | index (n : Nat)
deriving DecidableEq

/-- What an operation hands to `tracing`: the name of the command, the filter and the document.
`none`: the operation does not call it. collection.go:47-204. -/
def traceArgs (x : Args) : Op → Option (String × Option Val × Option Val)
  | .find => some ("find", x.filter.map .arg, none)
  | .count => some ("count", x.filter.map .arg, none)
  | .findOne => some ("findone", x.filter.map .arg, none)
  | .updateOne => some ("updateone", x.filter.map .arg, x.document.map .arg)
  | .insertOne => some ("insertone", none, x.document.map .arg)
  | .insertMany => some ("insertmany", none, none)
  | .deleteOne => some ("deleteone", x.filter.map .arg, none)
  | .setTTL => some ("setttl", some (.index x.index), none)
  | .createIndexes => some ("setttl", some (.index x.index), none)
  | .indexList => some ("setttl", some (.text ""), none)
  | .deleteOneIndex => some ("deleteIndex", some (.text ""), none)
  | .deleteMany => some ("deletemany", x.filter.map .arg, none)
  | .replaceOne => some ("replaceone", x.filter.map .arg, x.document.map .arg)
  | .findOneAndUpdate => some ("replaceone", x.filter.map .arg, x.document.map .arg)
  | .aggregate => none
  | .countDocuments => none
  | .bulkWrite => some ("BulkWrite", none, none)

/-- What is seen of an operation. (3rd/mgo/collection.go:19-204) -/
inductive Ev
  /-- `Begin` of a span of factory `f` -/
  | begin (f : Nat)
  | tag (f : Nat) (key : String) (v : Val)
  | db (op : Op) (x : Args)
  | finish (f : Nat)
deriving DecidableEq

/-- collection.go:19-45 `tracing`; `none`: it returns an error. -/
def tracing (works : Nat → Bool) (trc : Option Tracer) (cmd : String) (filter document : Option Val) :
    Option Nat × List Ev :=
  match trc with
  | some t =>
    match getSpan works t "" with
    | .ok f => (some f, [.begin f, .tag f "collection" .coll, .tag f "cmd" (.text cmd)] ++
        (match filter with | some v => [.tag f "filter" v] | none => []) ++
        (match document with | some v => [.tag f "document" v] | none => []))
    | .error _ => (none, [])
  | none => (none, [])

/-- The result of an operation of the driver; it may panic. (3rd/mgo/collection.go:47-204) -/
inductive Res
  | value (n : Nat)
  | panic
deriving DecidableEq

/-- One operation; `r`: the result of the driver. `End` is deferred, so it also runs after a panic.
(3rd/mgo/collection.go:47-204) -/
def run (works : Nat → Bool) (trc : Option Tracer) (op : Op) (x : Args) (r : Res) : List Ev × Res :=
  match traceArgs x op with
  | none => ([.db op x], r)
  | some (cmd, fl, doc) =>
    match tracing works trc cmd fl doc with
    | (some f, evs) => (evs ++ [.db op x] ++ [.finish f], r)
    | (none, evs) => (evs ++ [.db op x], r)

/-- mgr.go:66-78 `Collection`: what tracer the collection has, when `Build` was given `cfg`. -/
def collectionTracer (_cfg : Option Tracer) : Option Tracer := none

end Braid.Tracing
