import Verif.Lib.Lts

/-
Model of the actor loader of the tests: `tests/mock/mock_loader.go` (`AssignToNode`, `Pick`), with
`tests/mock/mock_factory.go`, `actor_dynamic_picker.go` and `actor_dynamic_register.go`.

Simplifications: of a constructor only its name, its id and `Dynamic` are kept. Constructors are pointers, that is
addresses in a heap. Registration itself succeeds or fails as given; see `Verif/Register` for it.
-/
namespace Braid.Loader

/-- `core.ActorConstructor` (tests/mock/mock_factory.go:13-79) -/
structure Con where
  name : String
  id : String
  dynamic : Bool
deriving DecidableEq

/-- A call of `Register`: type, id, and whether it succeeded. (tests/mock/mock_loader.go:60-81) -/
structure Reg where
  ty : String
  id : String
  ok : Bool
deriving DecidableEq

/-- The maps of options. (tests/mock/mock_loader.go:45-58) -/
abbrev Heap := Nat → Con

/-- `mock_factory.go` L81-87 `Get`: the map from types to constructors. (tests/mock/mock_factory.go:81-87) -/
def get (keys : List (String × Nat)) (ty : String) : Option Nat := (keys.find? fun x => x.1 == ty).map (·.2)

/-- `mock_loader.go` L60-81 `AssignToNode`, for the constructors in the order in which the map was read
(`mock_factory.go` L89-95). `outcome` says whether the registration of a type under an id succeeds. `none`: panic, as a
type without constructor has a nil builder. The calls of `Register` come with the new heap.
(tests/mock/mock_loader.go:60-95) -/
def assign (keys : List (String × Nat)) (outcome : String → String → Bool) (node : String) : List Nat → Heap → Option (Heap × List Reg)
  | [], h => some (h, [])
  | a :: l, h =>
    if (h a).dynamic then assign keys outcome node l h                                  -- L65-67
    else match get keys (h a).name with                                                 -- L69
      | none => none                                                                    -- L74, nil builder
      | some b =>
        let h' := if (h a).id = "" then upd h a { h a with id := (h a).name } else h     -- L70-72
        let id := node ++ "_" ++ (h' a).id                                              -- L74
        match assign keys outcome node l h' with
        | none => none
        | some (h2, rs) => some (h2, ⟨(h b).name, id, outcome (h b).name id⟩ :: rs)      -- L76-79

/-- A sequence of nodes that use one factory, each with the order in which it reads the map.
(tests/mock/mock_loader.go:60-81) -/
def assignAll (keys : List (String × Nat)) (outcome : String → String → Bool) : List (String × List Nat) → Heap → Option (List (List Reg))
  | [], _ => some []
  | (node, order) :: l, h =>
    match assign keys outcome node order h with
    | none => none
    | some (h', rs) => (assignAll keys outcome l h').map (rs :: ·)

/-! ### Picks -/

/-- A map of options. (tests/mock/mock_factory.go:13-79) -/
abbrev Opts := String → Option String

/-- Each node has its own factory, and so one map of options per type, shared by all builders of the type
(`Verif/Builder`, C60). Picks are on their way until they are registered.
(tests/mock/actor_dynamic_picker.go:27-56, tests/mock/actor_dynamic_register.go:24-57) -/
structure State where
  opts : Nat → String → Opts
  picks : Nat → Option (String × Opts)
  next : Nat

/-- Who takes the next step. (tests/mock/mock_loader.go:21-58) -/
inductive Act
  /-- `WithOpt` on a builder of the type at the node -/
  | withOpt (node : Nat) (ty k v : String)
  /-- `Picker` on a builder of the type with the id, at the node -/
  | pick (node : Nat) (ty id : String)
  /-- the pick reaches the node that the picker chose, with the id that it gave -/
  | register (i : Nat) (node : Nat) (id : String)

/-- What is seen of a run. (tests/mock/actor_dynamic_register.go:24-57) -/
inductive Ev
  /-- the builder of pick `i` has the options `o` -/
  | picked (i : Nat) (ty : String) (o : Opts)
  /-- the actor of pick `i` is made with the id and sees the options `o` -/
  | made (i : Nat) (node : Nat) (id : String) (o : Opts)

/-- All of `o` written over `p`. (core/actor/actor_build_impl.go:32-37) -/
def over (p o : Opts) : Opts := fun k => (o k).or (p k)

/-- tests/mock/mock_loader.go:23-49. -/
def step (s : State) : Act → Option (State × List Ev)
  | .withOpt n ty k v =>
    some ({ s with opts := upd s.opts n (upd (s.opts n) ty (upd (s.opts n ty) k (some v))) }, [])
  | .pick n ty id =>
    -- mock_loader.go L23-37: the options, then the id and the type
    let fields := upd (upd (s.opts n ty) "ActorID" (some id)) "ActorTy" (some ty)
    some ({ s with picks := upd s.picks s.next (some (ty, fields)), next := s.next + 1 }, [.picked s.next ty (s.opts n ty)])
  | .register i n id =>
    match s.picks i with
    | none => none
    | some (ty, fields) =>
      -- actor_dynamic_picker.go L49: the new id; actor_dynamic_register.go L35-47
      let o := over (s.opts n ty) (upd fields "ActorID" (some id))
      some ({ s with opts := upd s.opts n (upd (s.opts n) ty o), picks := upd s.picks i none }, [.made i n id o])

/-- The system. (tests/mock/mock_loader.go:21-58) -/
def sys : Lts State Act Ev := ⟨⟨fun _ _ _ => none, fun _ => none, 0⟩, step⟩

end Braid.Loader
