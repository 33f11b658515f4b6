import Verif.NodeOpts.Model

/-
What the options of a node and of a client should do (C108).
-/
namespace Braid.NodeOpts.Spec

/-- The last value the options give, or the default. -/
def lastOf {O α : Type} (sel : O → Option α) (d : α) (opts : List O) : α := ((opts.filterMap sel).getLast?).getD d

def selId : Opt → Option String
  | .id s => some s
  | _ => none
def selIp : Opt → Option String
  | .ip s | .serviceInfo s _ => some s
  | _ => none
def selPort : Opt → Option Int
  | .port n | .serviceInfo _ n => some n
  | _ => none
def selTracer : Opt → Option (Option Nat)
  | .tracer t => some t
  | _ => none
def selLoader : Opt → Option (Option Nat)
  | .loader l => some l
  | _ => none
def selFactory : Opt → Option (Option Nat)
  | .factory f => some f
  | _ => none
def selMax : COpt → Option Int
  | .maxCalls n => some n
  | _ => none

def connOf1 : COpt → List String
  | .conns l => l
  | _ => []
def dialOf1 : COpt → List Dial
  | .dial l => l
  | _ => []
def unaryOf1 : COpt → List Nat
  | .unary l => l
  | _ => []

/-- The addresses, dial options and interceptors given, in order. -/
def connsOf (opts : List COpt) : List String := opts.flatMap connOf1
def dialOf (opts : List COpt) : List Dial := opts.flatMap dialOf1
def unaryOf (opts : List COpt) : List Nat := opts.flatMap unaryOf1

/-- A node option has an effect: somewhere in some list of options, in some environment, the node is another one with it
than without it. -/
def Effective (o : Opt) : Prop :=
  ∃ env a b, (build env (a ++ o :: b)).map Process.sys ≠ (build env (a ++ b)).map Process.sys

/-- What can be seen of a client: how many calls it admits, how it dials, and where to. (`newconn`, `Init` and
`BuildClientWithOption` are all that reads the parameters.) -/
def seen (opts : List COpt) : Option (Nat × List Dial × List String) :=
  (buildClient opts).map fun c => (c.workers, dialOpts c, c.parm.addrs)

/-- A client option has an effect. -/
def EffectiveC (o : COpt) : Prop := ∃ a b, seen (a ++ o :: b) ≠ seen (a ++ b)

/-- The client options that do something: those for addresses, dial options and interceptors unless empty, and the
limit. -/
def works : COpt → Bool
  | .conns l => !l.isEmpty
  | .maxCalls _ => true
  | .dial l => !l.isEmpty
  | .unary l => !l.isEmpty
  | _ => false

/-- The addresses dialled with success, in order. -/
def dialled (ok : Nat → String → Bool) (i : Nat) (addrs : List String) : List String :=
  ((addrs.zipIdx i).filter fun p => ok p.2 p.1).map (·.1)

/-- For each address the map has the number of the last connection to it. -/
def Latest (m : String → Option Nat) (L : List String) : Prop :=
  ∀ a c, m a = some c ↔ L[c]? = some a ∧ ∀ c', c < c' → L[c']? ≠ some a

/-- The process of the last call of `BuildProcessWithOption` that did not panic. -/
def lastBuilt (env : Env) (calls : List (List Opt)) : Option Process := (calls.filterMap (build env)).getLast?

/-- `pcs` after some calls of `BuildProcessWithOption`. -/
def afterBuilds (env : Env) (calls : List (List Opt)) : Option Process :=
  calls.foldl (fun pcs opts => setPcs pcs (build env opts)) none

end Braid.NodeOpts.Spec
