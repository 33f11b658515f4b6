/-
Model of `core/actor/actor_chain.go`: `DefaultChain`.
-/
namespace Braid.Chain

/-- What a hook or handler does with the message: `EventHandler` returns nil, an error, or panics.
(core/actor/actor_chain.go:11-35) -/
inductive Out (E : Type)
  | ok
  | err (e : E)
  | panic

/-- core/actor/actor_runtime_impl.go:20 `type EventHandler func(*msg.Wrapper) error`; `S` is everything it can change
(the message wrapper and the program state). -/
abbrev Step (S E : Type) := S → S × Out E

/-- core/actor/actor_chain.go:5-9 `type DefaultChain struct`. `handler = none` is a nil handler. -/
structure DefaultChain (S E : Type) where
  before : List (Step S E)
  after : List (Step S E)
  handler : Option (Step S E)

/-- Which step was run. (core/actor/actor_chain.go:11-35) -/
inductive Lbl
  | before (i : Nat)
  | handler
  | after (i : Nat)
deriving DecidableEq

/-- core/actor/actor_chain.go:14-19 and 26-31: `for _, x := range xs { err = x(mw); if err != nil
{ goto ext } }`. Returns the state, the steps run (labelled from index `i`) and the outcome. -/
def loop {S E : Type} (lbl : Nat → Lbl) : Nat → List (Step S E) → S → S × List Lbl × Out E
  | _, [], s => (s, [], .ok)
  | i, x :: xs, s =>
    match x s with
    | (s1, .ok) =>
      let (s2, tr, o) := loop lbl (i + 1) xs s1
      (s2, lbl i :: tr, o)
    | (s1, .err e) => (s1, [lbl i], .err e)
    | (s1, .panic) => (s1, [lbl i], .panic)

/-- core/actor/actor_chain.go:11-35 `DefaultChain.Execute`. -/
def execute {S E : Type} (c : DefaultChain S E) (s : S) : S × List Lbl × Out E :=
  match loop .before 0 c.before s with -- L14-19
  | (s1, t1, .ok) =>
    match c.handler with -- L21
    | none => (s1, t1, .panic) -- call of a nil function
    | some hd =>
      match hd s1 with
      | (s2, .ok) =>
        let (s3, t3, o) := loop .after 0 c.after s2 -- L26-31
        (s3, t1 ++ .handler :: t3, o)
      | (s2, .err e) => (s2, t1 ++ [.handler], .err e) -- L22-24
      | (s2, .panic) => (s2, t1 ++ [.handler], .panic)
  | r => r

end Braid.Chain
