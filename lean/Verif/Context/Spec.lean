import Verif.Context.Model

/-
What the context of an actor should do (C71). A user makes calls `WithValue(k, v)`, in order.
-/
namespace Braid.Context

/-- A call `WithValue(key, value)` of a user. -/
structure Call where
  ty : Nat
  cmp : Bool
  kv : KVal
  value : Val
  /-- the key is `nil` -/
  null : Bool := false

def Call.key (c : Call) : Key := if c.null then .null else .user c.ty c.cmp c.kv

/-- The context after the calls, in order. -/
def after (base : Key → Option Val) (a s : Nat) (calls : List Call) : Ctx :=
  calls.foldl (fun c x => ctxWithValue c x.key x.value) (make base a s)

/-- The value of the last call with the key `k`, if any. -/
def last (k : Key) : List Call → Option Val
  | [] => none
  | x :: xs => (last k xs).or (if x.key = k then some x.value else none)

/-- **C71**, values: the last one set, or the one the actor was created with. -/
def LastWins (base : Key → Option Val) (a s : Nat) (calls : List Call) (k : Key) : Prop :=
  getValue (after base a s calls) k = .ok ((last k calls).or (base k))

/-- An ordinary key: of a comparable type and equal to itself. -/
def Plain (k : Key) : Prop := ∃ ty n, k = .user ty true (.plain n)

/-- In a program a type is comparable or not. -/
def Typed (calls : List Call) (k : Key) : Prop :=
  ∀ ty c v, k = .user ty c v → ∀ x ∈ calls, x.ty = ty → x.cmp = c

end Braid.Context
