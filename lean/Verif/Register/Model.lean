import Verif.Lib.Lts
import Verif.AddressBook.Model

/-
Model of creating and removing actors: `NormalSystem.Register` and `Unregister`
(core/node/system_impl.go:99-187), with the address book they use (core/addressbook/addressbook_impl.go:46-132,
302-316), run by any number of goroutines on any number of nodes. Every access to shared state is one step:
the map of a node, its `IDMap`, and each Redis command. Address book records may also be removed at any time
by the cleanup in `Call` and `Send` (system_impl.go:264-270).

Simplified: the loop over `actoridmap` at L115-119 runs without a lock and is one step here (with a concurrent
write the Go runtime may abort the process); an actor is alive from its construction to the return of its
`Exit`.
-/
namespace Braid.Register
open AddressBook

/-- What `Register` reads of the builder (core/actor/actor_build_impl.go:39-57). -/
structure Builder where
  id : String
  ty : String
  weight : Int
  /-- `GlobalQuantityLimit` -/
  limit : Int
  /-- `NodeUnique` -/
  unique : Bool
deriving DecidableEq

/-- An operation of a goroutine. (core/node/system_impl.go:99-187) -/
inductive Op
  /-- `Register` on node `n` -/
  | reg (n : Nat) (b : Builder)
  /-- `Unregister(id, ty)` on node `n` -/
  | unreg (n : Nat) (id ty : String)
  /-- the cleanup in `Call` and `Send` on node `n`: `addressbook.Unregister(id, w)` -/
  | clean (n : Nat) (id : String) (w : Int)
deriving DecidableEq

/-- How an operation ends. (core/node/system_impl.go:99-187) -/
inductive Res
  | ok
  /-- `ErrActorRegisterRepeat` -/
  | repeated
  | err
  | panic
deriving DecidableEq

/-- Where a goroutine is. (core/node/system_impl.go:105-173) -/
inductive Pc
  | idle
  /-- L105: about to look into the map -/
  | rMap (n : Nat) (b : Builder)
  /-- L115: about to look for an actor of the type -/
  | rUnique (n : Nat) (b : Builder)
  /-- L122: about to count -/
  | rCount (n : Nat) (b : Builder)
  /-- L132, addressbook_impl.go:51: about to look into the `IDMap` -/
  | rBook (n : Nat) (b : Builder)
  /-- addressbook_impl.go:75-86: `k` commands of the pipeline were executed -/
  | rPipe (n : Nat) (b : Builder) (k : Nat)
  /-- addressbook_impl.go:91 -/
  | rIdmap (n : Nat) (b : Builder)
  /-- L138-144 -/
  | rBuild (n : Nat) (b : Builder)
  /-- L146: the actor `i` exists -/
  | rInsert (n : Nat) (b : Builder) (i : Nat)
  /-- L158: about to look into the map -/
  | uMap (n : Nat) (id ty : String)
  /-- L164: in the `Exit` of actor `i` -/
  | uExit (n : Nat) (id ty : String) (i : Nat)
  /-- L167 -/
  | uDel (n : Nat) (id ty : String)
  /-- L173 -/
  | uFactory (n : Nat) (id ty : String)
  /-- addressbook_impl.go:104 (`o`: the operation it belongs to) -/
  | uGet (o : Op) (n : Nat) (id : String) (w : Int)
  /-- addressbook_impl.go:116-124: `k` commands of the pipeline were executed -/
  | uPipe (o : Op) (n : Nat) (a : Addr) (id : String) (w : Int) (k : Nat)
  /-- addressbook_impl.go:126 -/
  | uIdmap (o : Op) (n : Nat) (id : String)
deriving DecidableEq

/-- The operation a goroutine is in. (core/node/system_impl.go:99-187) -/
def Pc.op : Pc → Option Op
  | .idle => none
  | .rMap n b => some (.reg n b)
  | .rUnique n b => some (.reg n b)
  | .rCount n b => some (.reg n b)
  | .rBook n b => some (.reg n b)
  | .rPipe n b _ => some (.reg n b)
  | .rIdmap n b => some (.reg n b)
  | .rBuild n b => some (.reg n b)
  | .rInsert n b _ => some (.reg n b)
  | .uMap n id ty => some (.unreg n id ty)
  | .uExit n id ty _ => some (.unreg n id ty)
  | .uDel n id ty => some (.unreg n id ty)
  | .uFactory n id ty => some (.unreg n id ty)
  | .uGet o _ _ _ => some o
  | .uPipe o _ _ _ _ _ => some o
  | .uIdmap o _ _ => some o

/-- An actor object. (core/node/system_impl.go:99-152) -/
structure Inst where
  node : Nat
  id : String
  ty : String
deriving DecidableEq

/-- What can be observed. (core/node/system_impl.go:99-187) -/
inductive Ev
  | begin (g : Nat) (o : Op)
  | finish (g : Nat) (r : Res)
  /-- the actor object `i` was constructed -/
  | created (i : Nat) (a : Inst)
  /-- its `Exit` returned -/
  | exited (i : Nat)
deriving DecidableEq

/-- core/node/system_impl.go:24-42. -/
structure State where
  /-- Redis and the `IDMap`s -/
  W : World
  /-- `actoridmap` of each node (system_impl.go:26) -/
  map : Nat → List (String × Nat)
  inst : Nat → Inst
  alive : Nat → Bool
  /-- number of actor objects -/
  next : Nat
  pc : Nat → Pc

/-- Nothing registered. (core/node/system_impl.go:46-89) -/
def init : State := ⟨World.init, fun _ => [], fun _ => ⟨0, "", ""⟩, fun _ => false, 0, fun _ => .idle⟩

/-- core/node/system_impl.go:99-187. -/
inductive Act
  /-- a goroutine calls an operation -/
  | start (g : Nat) (o : Op)
  /-- it makes a step -/
  | go (g : Nat)
  /-- a Redis access of it fails, or (L143) there is no constructor -/
  | fail (g : Nat)

/-- `actoridmap[id]`. (core/node/system_impl.go:99-187) -/
def get (l : List (String × Nat)) (id : String) : Option Nat := l.lookup id

/-- `delete(actoridmap, id)`. (core/node/system_impl.go:154-187) -/
def del (l : List (String × Nat)) (id : String) : List (String × Nat) := l.filter (·.1 ≠ id)

/-- `actoridmap[id] = i`. (core/node/system_impl.go:99-152) -/
def put (l : List (String × Nat)) (id : String) (i : Nat) : List (String × Nat) := (id, i) :: del l id

/-- `IDMap[id] = v`. (core/node/system_impl.go:99-187) -/
def setIdmap (W : World) (n : Nat) (id : String) (v : Bool) : World :=
  { W with idmap := fun m x => if m = n ∧ x = id then v else W.idmap m x }

variable (cfg : Nat → NodeCfg) (factory : Nat → String → Option Int)

/-- The operation of `g` returns. (core/node/system_impl.go:99-187) -/
def ret (s : State) (g : Nat) (r : Res) : Option (State × List Ev) :=
  some ({ s with pc := upd s.pc g .idle }, [.finish g r])

/-- The goroutine `g` moves on. (core/node/system_impl.go:99-187) -/
def at_ (s : State) (g : Nat) (p : Pc) : Option (State × List Ev) := some ({ s with pc := upd s.pc g p }, [])

/-- One step of goroutine `g`. (core/node/system_impl.go:101-182) -/
def stepGo (s : State) (g : Nat) : Option (State × List Ev) :=
  match s.pc g with
  | .idle => none
  | .rMap n b => -- L101-112
    if b.id = "" ∨ b.ty = "" then ret s g .err
    else if get (s.map n) b.id ≠ none then ret s g .repeated
    else if b.limit ≠ 0 then
      if b.unique then at_ s g (.rUnique n b) else at_ s g (.rCount n b)
    else at_ s g (.rBook n b)
  | .rUnique n b => -- L115-119
    if (s.map n).any (fun p => (s.inst p.2).ty = b.ty) then ret s g .err else at_ s g (.rCount n b)
  | .rCount n b => -- L122-128
    if (getActorTypeCount s.W b.ty : Int) ≥ b.limit then ret s g .err else at_ s g (.rBook n b)
  | .rBook n b => -- addressbook_impl.go:47-56
    if s.W.idmap n b.id then ret s g .err else at_ s g (.rPipe n b 0)
  | .rPipe n b k =>
    match (registerCmds cfg n b.ty b.id b.weight)[k]? with
    | some c => some ({ s with W := { s.W with redis := s.W.redis.run c }, pc := upd s.pc g (.rPipe n b (k + 1)) }, [])
    | none => at_ s g (.rIdmap n b)
  | .rIdmap n b => -- addressbook_impl.go:91-93
    some ({ s with W := setIdmap s.W n b.id true, pc := upd s.pc g (.rBuild n b) }, [])
  | .rBuild n b => -- L139-141
    some ({ s with
      inst := upd s.inst s.next ⟨n, b.id, b.ty⟩
      alive := upd s.alive s.next true
      next := s.next + 1
      pc := upd s.pc g (.rInsert n b s.next) }, [.created s.next ⟨n, b.id, b.ty⟩])
  | .rInsert n b i => -- L146-151
    some ({ s with map := upd s.map n (put (s.map n) b.id i), pc := upd s.pc g .idle }, [.finish g .ok])
  | .uMap n id ty => -- L158-162
    match get (s.map n) id with
    | some i => at_ s g (.uExit n id ty i)
    | none => at_ s g (.uFactory n id ty)
  | .uExit n id ty i => -- L164; a second `Exit` panics (close of a closed channel)
    if s.alive i then
      some ({ s with alive := upd s.alive i false, pc := upd s.pc g (.uDel n id ty) }, [.exited i])
    else ret s g .panic
  | .uDel n id ty => -- L167-169
    some ({ s with map := upd s.map n (del (s.map n) id), pc := upd s.pc g (.uFactory n id ty) }, [])
  | .uFactory n id ty => -- L173-176
    match factory n ty with
    | none => ret s g .err
    | some w => at_ s g (.uGet (.unreg n id ty) n id w)
  | .uGet o n id w => -- addressbook_impl.go:99-113
    match s.W.redis.ids id with
    | none => ret s g .ok -- L179-182: the error is logged
    | some a => at_ s g (.uPipe o n a id w 0)
  | .uPipe o n a id w k =>
    match (unregisterCmds cfg n a id w)[k]? with
    | some c =>
      some ({ s with W := { s.W with redis := s.W.redis.run c }, pc := upd s.pc g (.uPipe o n a id w (k + 1)) }, [])
    | none => at_ s g (.uIdmap o n id)
  | .uIdmap _ n id => -- addressbook_impl.go:126-128
    some ({ s with W := setIdmap s.W n id false, pc := upd s.pc g .idle }, [.finish g .ok])

/-- A step of `g` that fails. (core/node/system_impl.go:123-182) -/
def stepFail (s : State) (g : Nat) : Option (State × List Ev) :=
  match s.pc g with
  | .rCount _ _ => ret s g .err -- L123-125
  | .rPipe _ _ _ => ret s g .err -- addressbook_impl.go:87-89
  | .rBuild _ _ => ret s g .panic -- L143
  | .uGet _ _ _ _ => ret s g .ok -- L179-182
  | .uPipe _ _ _ _ _ _ => ret s g .ok
  | _ => none

/-- core/node/system_impl.go:99-187. -/
def step (s : State) : Act → Option (State × List Ev)
  | .start g o =>
    match s.pc g with
    | .idle =>
      match o with
      | .reg n b => some ({ s with pc := upd s.pc g (.rMap n b) }, [.begin g o])
      | .unreg n id ty => some ({ s with pc := upd s.pc g (.uMap n id ty) }, [.begin g o])
      | .clean n id w => some ({ s with pc := upd s.pc g (.uGet o n id w) }, [.begin g o])
    | _ => none
  | .go g => stepGo cfg factory s g
  | .fail g => stepFail s g

/-- The cluster. (core/node/system_impl.go:99-187) -/
def sys : Lts State Act Ev := ⟨init, step cfg factory⟩

end Braid.Register
