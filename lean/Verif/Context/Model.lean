/-
Model of `core/actor/actor_context_impl.go`: the values kept in the context of an actor, on top of
`context.WithValue` and `Value` (go 1.22), and `actor_runtime_impl.go` L58-64, which makes it.

Simplifications: a value is a number, except for the actor and the system, which are values of their own. A key is
the type of the key and its value; types are numbers. `actorKey{}` and `systemKey{}` have types that no code outside
the package `actor` can name, so the keys given by users are never these; values of these types come with
constructors of their own. A value of a user type is an ordinary one, a floating point NaN (not equal to itself) or
one whose comparison panics though its type is comparable (an interface field holding a slice).
-/
namespace Braid.Context

/-- The content of a key of a user type. (core/actor/actor_context_impl.go:105-111) -/
inductive KVal
  | plain (n : Nat)
  | nan
  | deep
deriving DecidableEq

/-- A key of a context. (core/actor/actor_runtime_impl.go:22-23, core/actor/actor_context_impl.go:105-111) -/
inductive Key
  /-- `actorKey{}` -/
  | actor
  /-- `systemKey{}` -/
  | system
  /-- `nil` -/
  | null
  /-- a key of the type `ty`; `cmp`: the type is comparable -/
  | user (ty : Nat) (cmp : Bool) (v : KVal)
deriving DecidableEq

/-- A value: of a user, or an actor, or a system. (core/actor/actor_context_impl.go:105-111) -/
inductive Val
  | user (n : Nat)
  | actor (a : Nat)
  | sys (s : Nat)
deriving DecidableEq

/-- Go's `==` on two interface values; `none` is a panic. (core/actor/actor_context_impl.go:105-111) -/
def eq : Key → Key → Option Bool
  | .actor, .actor => some true
  | .system, .system => some true
  | .null, .null => some true
  | .user t c v, .user t' _ v' =>
    if t ≠ t' then some false
    else if ¬ c then none
    else match v, v' with
      | .plain n, .plain m => some (n = m)
      | .deep, .deep => none
      | _, _ => some false
  | _, _ => some false

/-- `context.Context`: the context given to `Init`, and what `context.WithValue` put on top of it, last first.
(core/actor/actor_context_impl.go:11-13) -/
structure Ctx where
  base : Key → Option Val
  top : List (Key × Val)

/-- What a call returns. (core/actor/actor_context_impl.go:15-111) -/
inductive Res (α : Type)
  | ok (a : α)
  | panic
deriving DecidableEq

/-- `context.WithValue`: panics if the key is nil or of a type that is not comparable.
(core/actor/actor_context_impl.go:105-107) -/
def withValue (c : Ctx) (k : Key) (v : Val) : Res Ctx :=
  match k with
  | .null => .panic
  | .user _ false _ => .panic
  | k => .ok { c with top := (k, v) :: c.top }

/-- `context.value`: from the last value to the first, then the context below.
(core/actor/actor_context_impl.go:109-111) -/
def look (base : Key → Option Val) (k : Key) : List (Key × Val) → Res (Option Val)
  | [] => .ok (base k)
  | (k', v) :: t =>
    match eq k' k with
    | none => .panic
    | some true => .ok (some v)
    | some false => look base k t

/-- L105-107 `WithValue`: a panic leaves `ac.ctx` as it is. (core/actor/actor_context_impl.go:105-107) -/
def ctxWithValue (c : Ctx) (k : Key) (v : Val) : Ctx :=
  match withValue c k v with
  | .ok c' => c'
  | .panic => c

/-- L109-111 `GetValue`. (core/actor/actor_context_impl.go:109-111) -/
def getValue (c : Ctx) (k : Key) : Res (Option Val) := look c.base k c.top

/-- `actor_runtime_impl.go` L58-64. (core/actor/actor_runtime_impl.go:58-64) -/
def make (base : Key → Option Val) (a s : Nat) : Ctx := ⟨base, [(.actor, .actor a), (.system, .sys s)]⟩

/-- L14-17 and the same in `ID`, `Type`, `ReenterCall`: the actor; a panic if there is none.
(core/actor/actor_context_impl.go:14-17) -/
def theActor (c : Ctx) : Res Nat :=
  match getValue c .actor with
  | .ok (some (.actor a)) => .ok a
  | _ => .panic

/-- L50-53 and the same in `Unregister`, `Pub`, `AddressBook`, `System`, `Loader`: the system.
(core/actor/actor_context_impl.go:50-53) -/
def theSystem (c : Ctx) : Res Nat :=
  match getValue c .system with
  | .ok (some (.sys s)) => .ok s
  | _ => .panic

end Braid.Context
