import Verif.Mgo.Model

/-
What the MongoDB manager should do (C75).
-/
namespace Braid.Mgo

/-- **C75**: after a `Build` that returned nil every connection given to it can be used. -/
def Usable (opts : List Opt) (s : State) : Prop := ∀ c, Opt.appendConn c ∈ opts → (collection s c.name).isSome

/-- The connections given, in order. -/
def given (opts : List Opt) : List ConnInfo :=
  opts.filterMap fun o => match o with | .appendConn c => some c | .other => none

/-- No address is given twice. -/
def DistinctAddrs (opts : List Opt) : Prop := ((given opts).map (·.addr)).Nodup

/-- The address last given for a name. -/
def lastAddr (n : String) : List ConnInfo → Option String
  | [] => none
  | c :: cs => (lastAddr n cs).or (if c.name = n then some c.addr else none)

end Braid.Mgo
