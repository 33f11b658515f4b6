/-
Model of the address book (`core/addressbook/addressbook_impl.go`) over the Redis keys it uses.

Redis keys and values are structured instead of strings: the JSON text of an `AddressInfo` is the
record itself (encoding/json of that struct is injective and inverted by decoding), the fields
`actor:<ty>` and `total_weight` of a node hash are the constructors of `Field`, and the keys
`braid.addressbook.id`, `braid.addressbook.ty.<ty>`, `braid.addressbook.nodes` and `{node:<id>}` are
the components of `Redis`; they are different strings. Counters are unbounded integers.
-/
namespace Braid.AddressBook

/-- core/addressbook.go:5-12 `type AddressInfo struct` (`Service` is never set and left out). -/
structure Addr where
  actorId : String
  actorTy : String
  node : String
  ip : String
  port : Int
deriving DecidableEq

/-- The zero `AddressInfo`. (core/addressbook/addressbook_impl.go:135-163) -/
def Addr.zero : Addr := ⟨"", "", "", "", 0⟩

/-- core/addressbook/addressbook_impl.go:23-26: the address of a node. -/
structure NodeCfg where
  nodeID : String
  ip : String
  port : Int
deriving DecidableEq

/-- The fields of the hash of a node: addressbook_impl.go:83 (`actor:<ty>`), 84 (`total_weight`). -/
inductive Field
  | total
  | actor (ty : String)
deriving DecidableEq

/-- The Redis keys of the address book: def/system_def.go and addressbook_impl.go:42-44. -/
structure Redis where
  /-- hash `braid.addressbook.id` -/
  ids : String → Option Addr
  /-- sets `braid.addressbook.ty.<ty>` (no duplicates) -/
  tys : String → List Addr
  /-- hash `braid.addressbook.nodes` -/
  nodes : String → Option Addr
  /-- hashes `{node:<id>}` -/
  load : String → List (Field × Int)

/-- The Redis commands that write. (core/addressbook/addressbook_impl.go:46-132, 318-370) -/
inductive Cmd
  | hsetId (id : String) (a : Addr)
  | hdelId (id : String)
  | sadd (ty : String) (a : Addr)
  | srem (ty : String) (a : Addr)
  | hsetNode (node : String) (a : Addr)
  | hdelNode (node : String)
  | hincr (node : String) (f : Field) (w : Int)
  | delLoad (node : String)

/-- Point update. (core/addressbook/addressbook_impl.go:46-132) -/
def set {β : Type} (f : String → β) (k : String) (v : β) : String → β := fun x => if x = k then v else f x

/-- HINCRBY on a hash: a missing field counts as 0. (core/addressbook/addressbook_impl.go:83-84, 121-122) -/
def hincrBy (f : Field) (w : Int) : List (Field × Int) → List (Field × Int)
  | [] => [(f, w)]
  | (g, v) :: r => if g = f then (g, v + w) :: r else (g, v) :: hincrBy f w r

/-- HGET. (core/addressbook/addressbook_impl.go:135-163) -/
def hget (f : Field) : List (Field × Int) → Option Int
  | [] => none
  | (g, v) :: r => if g = f then some v else hget f r

/-- Effect of a command. (core/addressbook/addressbook_impl.go:46-370) -/
def Redis.run (r : Redis) : Cmd → Redis
  | .hsetId id a => { r with ids := set r.ids id (some a) }
  | .hdelId id => { r with ids := set r.ids id none }
  | .sadd ty a => { r with tys := set r.tys ty (if a ∈ r.tys ty then r.tys ty else r.tys ty ++ [a]) }
  | .srem ty a => { r with tys := set r.tys ty ((r.tys ty).filter (· ≠ a)) }
  | .hsetNode n a => { r with nodes := set r.nodes n (some a) }
  | .hdelNode n => { r with nodes := set r.nodes n none }
  | .hincr n f w => { r with load := set r.load n (hincrBy f w (r.load n)) }
  | .delLoad n => { r with load := set r.load n [] }

/-- A pipeline: the commands one after the other. (core/addressbook/addressbook_impl.go:76-95, 113-131, 335-369) -/
def Redis.pipe (r : Redis) (cs : List Cmd) : Redis := cs.foldl Redis.run r

/-- The whole cluster: Redis, and the `IDMap` (addressbook_impl.go:28) of each node. -/
structure World where
  redis : Redis
  idmap : Nat → String → Bool

/-- Nothing registered. (core/addressbook/addressbook_impl.go:33-40) -/
def World.init : World := ⟨⟨fun _ => none, fun _ => [], fun _ => none, fun _ => []⟩, fun _ _ => false⟩

variable (cfg : Nat → NodeCfg)

/-- addressbook_impl.go:59-65: the address of an actor of node `n`. -/
def addrOf (n : Nat) (ty id : String) : Addr := ⟨id, ty, (cfg n).nodeID, (cfg n).ip, (cfg n).port⟩

/-- addressbook_impl.go:68-72: the address of the node `n`. -/
def nodeAddr (n : Nat) : Addr := ⟨"", "", (cfg n).nodeID, (cfg n).ip, (cfg n).port⟩

/-- addressbook_impl.go:75-84: the pipeline of Register. -/
def registerCmds (n : Nat) (ty id : String) (w : Int) : List Cmd :=
  [.hsetId id (addrOf cfg n ty id),
   .sadd ty (addrOf cfg n ty id),
   .hsetNode (cfg n).nodeID (nodeAddr cfg n),
   .hincr (cfg n).nodeID (.actor ty) w,
   .hincr (cfg n).nodeID .total w]

/-- addressbook_impl.go:46-96 `Register` on node `n`, and whether it returned nil. `fault = some k`: the
connection breaks after `k` commands of the pipeline were executed (all of them if `k` is larger: the
reply is lost), and `Exec` returns an error. -/
def register (fault : Option Nat) (W : World) (n : Nat) (ty id : String) (w : Int) : World × Bool :=
  if id = "" ∨ ty = "" then (W, false)
  else if W.idmap n id then (W, false)
  else
    match fault with
    | some k => ({ W with redis := W.redis.pipe ((registerCmds cfg n ty id w).take k) }, false)
    | none =>
      (⟨W.redis.pipe (registerCmds cfg n ty id w),
        fun m x => if m = n ∧ x = id then true else W.idmap m x⟩, true)

/-- addressbook_impl.go:116-122: the pipeline of Unregister. -/
def unregisterCmds (n : Nat) (a : Addr) (id : String) (w : Int) : List Cmd :=
  [.hdelId id,
   .srem a.actorTy a,
   .hincr (cfg n).nodeID (.actor a.actorTy) (-w),
   .hincr (cfg n).nodeID .total (-w)]

/-- addressbook_impl.go:98-132 `Unregister` on node `n`, and whether it returned nil. -/
def unregister (fault : Option Nat) (W : World) (n : Nat) (id : String) (w : Int) : World × Bool :=
  if id = "" then (W, false)
  else
    match W.redis.ids id with
    | none => (W, false)
    | some a =>
      match fault with
      | some k => ({ W with redis := W.redis.pipe ((unregisterCmds cfg n a id w).take k) }, false)
      | none =>
        (⟨W.redis.pipe (unregisterCmds cfg n a id w),
          fun m x => if m = n ∧ x = id then false else W.idmap m x⟩, true)

/-- The errors of the lookups: addressbook_impl.go:20 and the texts. -/
inductive LookupErr
  | emptyId
  | unknownActor
  | noActors
  | noNodes
  | pipeline
deriving DecidableEq

/-- addressbook_impl.go:135-163 `GetByID` on node `n`. -/
def getByID (W : World) (n : Nat) (id : String) : Except LookupErr Addr :=
  if id = "" then .error .emptyId
  else if W.idmap n id then .ok ⟨id, "", (cfg n).nodeID, (cfg n).ip, (cfg n).port⟩
  else
    match W.redis.ids id with
    | none => .error .unknownActor
    | some a => .ok a

/-- addressbook_impl.go:166-183 `GetByType` (the order is that of the set). -/
def getByType (W : World) (ty : String) : List Addr := W.redis.tys ty

/-- addressbook_impl.go:302-316 `GetActorTypeCount`. -/
def getActorTypeCount (W : World) (ty : String) : Nat := (W.redis.tys ty).length

/-- The largest `int`, addressbook_impl.go:209 and 251. -/
def maxInt : Int := 2 ^ 63 - 1

/-- addressbook_impl.go:211-229: the loop over the sampled addresses. -/
def wildcardLoop (weight : String → Option Int) : List Addr → Int × Addr → Int × Addr
  | [], acc => acc
  | a :: r, (lowest, best) =>
    match weight a.node with
    | none => wildcardLoop weight r (lowest, best)
    | some w => wildcardLoop weight r (if w < lowest then (w, a) else (lowest, best))

/-- addressbook_impl.go:191-236 `GetWildcardActor`, given what SRANDMEMBER returned and the readable
loads of the nodes. -/
def wildcard (weight : String → Option Int) (sample : List Addr) : Except LookupErr Addr :=
  if sample.length = 0 then .error .noActors
  else
    let r := wildcardLoop weight sample (maxInt, Addr.zero)
    if r.1 = maxInt then .error .noActors else .ok r.2

/-- The load of a node as `GetWildcardActor` reads it (addressbook_impl.go:219). -/
def totalWeight (W : World) (node : String) : Option Int := hget .total (W.redis.load node)

/-- addressbook_impl.go:265-292: the loop over the nodes in the order of the second `range`, with the
replies in the order of the first one. All replies are values: `Exec` would have failed otherwise. -/
def lowLoop : List (String × Addr) → List Int → Int × Addr → Int × Addr
  | (_, a) :: ns, w :: ws, (lowest, best) =>
    lowLoop ns ws (if w < lowest then (w, a) else (lowest, best))
  | _, _, acc => acc

/-- The values of a list of options, if all are there. (core/addressbook/addressbook_impl.go:166-183, 239-299) -/
def allSome : List (Option Int) → Option (List Int)
  | [] => some []
  | none :: _ => none
  | some w :: r => (allSome r).map (w :: ·)

/-- addressbook_impl.go:239-299 `GetLowWeightNodeForActor`, given the entries of the node map in the
order of the first `range` (L256) and of the second one (L266). -/
def lowWeightNode (weight : String → Option Int) (order1 order2 : List (String × Addr)) :
    Except LookupErr Addr :=
  if order1.length = 0 then .error .noNodes
  else
    match allSome (order1.map fun e => weight e.1) with
    | none => .error .pipeline
    | some ws =>
      let r := lowLoop order2 ws (maxInt, Addr.zero)
      if r.2.node = "" then .error .noNodes else .ok r.2

/-- The types in the hash of a node, addressbook_impl.go:335-339. -/
def typesOf : List (Field × Int) → List String
  | [] => []
  | (.total, _) :: r => typesOf r
  | (.actor ty, _) :: r => ty :: typesOf r

/-- addressbook_impl.go:335-361: the pipeline of Clear. -/
def clearCmds (r : Redis) (node : String) : List Cmd :=
  (typesOf (r.load node)).flatMap (fun ty =>
    ((r.tys ty).filter (fun a => a.node = node)).flatMap fun a => [.srem ty a, .hdelId a.actorId]) ++
  [.delLoad node, .hdelNode node]

/-- addressbook_impl.go:318-370 `Clear` on node `n`, when the lock is acquired and Redis answers. -/
def clear (W : World) (n : Nat) : World :=
  { W with redis := W.redis.pipe (clearCmds W.redis (cfg n).nodeID) }

/-- The operations of the nodes. (core/addressbook/addressbook_impl.go:46-370) -/
inductive Op
  | register (n : Nat) (ty id : String) (w : Int)
  | unregister (n : Nat) (id : String) (w : Int)
  | clear (n : Nat)

/-- An operation that Redis answers. (core/addressbook/addressbook_impl.go:46-370) -/
def apply (W : World) : Op → World
  | .register n ty id w => (register cfg none W n ty id w).1
  | .unregister n id w => (unregister cfg none W n id w).1
  | .clear n => clear cfg W n

/-- The world after a list of operations. (core/addressbook/addressbook_impl.go:46-370) -/
def runOps (ops : List Op) : World := ops.foldl (apply cfg) World.init

end Braid.AddressBook
