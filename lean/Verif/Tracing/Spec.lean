import Verif.Tracing.Model

/-
Specification of the tracer and of traced operations.
-/
namespace Braid.Tracing.Spec

/-- The factories the options name, in order. -/
def factoriesOf (opts : List Opt) : List (String × Nat) := opts.flatMap fun | .factories l => l | _ => []

def lastOf {α : Type} (sel : Opt → Option α) (d : α) (opts : List Opt) : α := ((opts.filterMap sel).getLast?).getD d

def selName : Opt → Option String
  | .serviceName s => some s
  | _ => none
def selRate : Opt → Option Nat
  | .probabilistic n => some n
  | _ => none
def selSampler : Opt → Option String
  | .samplerType s => some s
  | _ => none
def selHttp : Opt → Option String
  | .http s => some s
  | _ => none
def selUdp : Opt → Option String
  | .udp s => some s
  | _ => none

/-- The operation is traced: one span is begun before the operation and ended after it, and named after a command. -/
def Traced (op : Op) (x : Args) (evs : List Ev) : Prop :=
  ∃ f name tags, evs = .begin f :: tags ++ [.db op x, .finish f] ∧ .tag f "cmd" (.text name) ∈ tags ∧
    ∀ e ∈ tags, ∃ k v, e = .tag f k v

/-- The names of commands under which an operation is traced. -/
def NamedAs (works : Nat → Bool) (trc : Option Tracer) (op : Op) (name : String) : Prop :=
  ∃ x r f, .tag f "cmd" (.text name) ∈ (run works trc op x r).1

/-- The name of the method of an operation. -/
def methodName : Op → String
  | .find => "Find" | .count => "Count" | .findOne => "FindOne" | .updateOne => "UpdateOne"
  | .insertOne => "InsertOne" | .insertMany => "InsertMany" | .deleteOne => "DeleteOne" | .setTTL => "SetTTL"
  | .createIndexes => "CreateIndexes" | .indexList => "IndexList" | .deleteOneIndex => "DeleteOneIndex"
  | .deleteMany => "DeleteMany" | .replaceOne => "ReplaceOne" | .findOneAndUpdate => "FindOneAndUpdate"
  | .aggregate => "Aggregate" | .countDocuments => "CountDocuments" | .bulkWrite => "BulkWrite"

/-- The letters of a name in lower case. -/
def lower (s : String) : List Char := s.toList.map Char.toLower

/-- The operations with a filter. -/
def hasFilter (op : Op) : Prop :=
  op ∈ [.find, .count, .findOne, .updateOne, .deleteOne, .deleteMany, .replaceOne, .findOneAndUpdate, .countDocuments]

/-- The operations with documents. -/
def hasDocument (op : Op) : Prop :=
  op ∈ [.updateOne, .insertOne, .insertMany, .replaceOne, .findOneAndUpdate, .aggregate, .bulkWrite]

/-- The span shows the filter and the documents. -/
def Shows (op : Op) (x : Args) (evs : List Ev) : Prop :=
  (hasFilter op → ∀ n, x.filter = some n ↔ ∃ f, .tag f "filter" (.arg n) ∈ evs) ∧
  (hasDocument op → ∀ n, x.document = some n ↔ ∃ f, .tag f "document" (.arg n) ∈ evs)

end Braid.Tracing.Spec
