import Verif.AddressBook.Spec

/-
Model of message routing: `NormalSystem.Call` and `Send` (core/node/system_impl.go:197-445), the acceptor at
the other end (core/node/system_acceptor.go:94-114), the header fields set by `Runtime.Call`, `ReenterCall`
and checked by `Runtime.Received` (core/actor/actor_runtime_impl.go:159-197).

The address book is the model of `Verif/AddressBook`. Tracing (L207-220, L373-386) and logging are left out.
Routing decisions are taken in a given state of the cluster; what changes the cluster is in
`Verif/Register`, and waiting for the handlers is in `Verif/CallTree`.
-/
namespace Braid.System
open AddressBook

/-! ### Headers -/

/-- The fields of `router.Header` that routing uses. (core/node/system_impl.go:197-215) -/
structure Header where
  event : String
  targetId : String
  targetTy : String
  orgId : String
  orgTy : String
  prevTy : String
deriving DecidableEq

/-- An actor, as the header knows it. (core/node/system_impl.go:24-42) -/
structure ActorRef where
  id : String
  ty : String
deriving DecidableEq

/-- core/actor/actor_runtime_impl.go:161-167 (`Call`) and L193-197 (`ReenterCall`). -/
def actorHeader (a : ActorRef) (h : Header) : Header :=
  let h := if h.orgId = "" then { h with orgId := a.id, orgTy := a.ty } else h
  { h with prevTy := a.ty }

/-- core/node/system_impl.go:199-201 (`Call`) and L365-367 (`Send`). -/
def sysHeader (target ty event : String) (h : Header) : Header :=
  { h with event := event, targetId := target, targetTy := ty }

/-- core/node/system_acceptor.go:100-101. -/
def acceptorHeader (h : Header) : Header := { h with prevTy := "GrpcAcceptor" }

/-- What `Received` does with a message (actor_runtime_impl.go:172-190). -/
inductive Recv
  /-- L176: `ErrSelfCall` -/
  | selfCall
  /-- L183 -/
  | closed
  /-- L186-189: pushed into the mailbox -/
  | queued
deriving DecidableEq

/-- `Received` of the actor with id `self`. (core/actor/actor_runtime_impl.go:172-190) -/
def received (self : String) (closed : Bool) (h : Header) : Recv :=
  if h.orgId ≠ "" ∧ h.orgId = self then .selfCall
  else if closed then .closed
  else .queued

/-- One hop of a chain of calls: the actor that calls, and whether the target is on another node.
(core/node/system_impl.go:197-275, core/node/system_acceptor.go:94-114) -/
structure Hop where
  actor : ActorRef
  remote : Bool
  target : String
  ty : String
  event : String

/-- The header after the hops of a chain. (core/node/system_impl.go:197-275, core/node/system_acceptor.go:94-114) -/
def chain (h : Header) : List Hop → Header
  | [] => h
  | p :: r =>
    let h1 := sysHeader p.target p.ty p.event (actorHeader p.actor h)
    chain (if p.remote then sysHeader p.target p.ty p.event (acceptorHeader h1) else h1) r

/-! ### Routing -/

/-- The parts of a node that routing looks at. (core/node/system_impl.go:24-42) -/
structure Node where
  /-- `actoridmap` (system_impl.go:26): ids and the types of the actors -/
  actors : List (String × String)
  /-- `factory.Get(ty).Weight`, if the type is known -/
  factory : String → Option Int

/-- The cluster: addresses, nodes, and who listens where. (core/node/system_impl.go:24-42) -/
structure Cluster where
  cfg : Nat → NodeCfg
  node : Nat → Node
  /-- the node whose acceptor listens at an address -/
  listen : String → Int → Option Nat

/-- `actoridmap[id]`. (core/node/system_impl.go:24-42) -/
def Cluster.has (C : Cluster) (n : Nat) (id : String) : Bool := (C.node n).actors.any (·.1 = id)

/-- What is chosen freely at a hop: the sample of `SRANDMEMBER` and the iteration order of `actoridmap`.
(core/node/system_impl.go:197-291) -/
structure Oracle where
  sample : List Addr
  order : List (String × String)

/-- The choices that are possible. (core/node/system_impl.go:197-291) -/
def Oracle.Valid (C : Cluster) (W : World) (n : Nat) (ty : String) (o : Oracle) : Prop :=
  AddressBook.Spec.IsSample (W.redis.tys ty) o.sample ∧ o.order.Perm (C.node n).actors

/-- What `Call` or `Send` does at one node. (core/node/system_impl.go:222-274) -/
inductive Decision
  /-- L222-224: error -/
  | empty
  /-- L234, L243, L252: the message goes to this local actor -/
  | here (id : String)
  /-- L238-240, L260-262: error of the address book -/
  | unknown (e : LookupErr)
  /-- L264-270: the record is removed, with this weight; error -/
  | stale (id : String) (w : Int)
  /-- L265: `factory.Get(actorType)` is nil -/
  | crash
  /-- L274: to another node -/
  | forward (a : Addr)
deriving DecidableEq

/-- L264-274, L428-436: what happens with an address that is not that of a local actor.
(core/node/system_impl.go:264-436) -/
def resolve (C : Cluster) (n : Nat) (ty : String) (info : Addr) : Decision :=
  if info.ip = (C.cfg n).ip ∧ info.port = (C.cfg n).port then
    match (C.node n).factory ty with
    | some w => .stale info.actorId w
    | none => .crash
  else .forward info

/-- L222-275 `Call` and L388-437 `Send` on node `n` (the two are the same up to what is done with the
target). (core/node/system_impl.go:222-437) -/
def route (C : Cluster) (W : World) (n : Nat) (target ty : String) (o : Oracle) : Decision :=
  if target = "" then .empty
  else if target = "?" then -- L227-235
    match wildcard (totalWeight W) o.sample with
    | .ok info => if C.has n info.actorId then .here info.actorId else resolve C n ty info
    | .error e => if C.has n Addr.zero.actorId then .here Addr.zero.actorId else .unknown e
  else if target = "~" then -- L236-244, L277-291
    match o.order.find? (·.2 = ty) with
    | some (id, _) => .here id
    | none =>
      match wildcard (totalWeight W) o.sample with
      | .ok info => resolve C n ty info
      | .error e => .unknown e
  else -- L245-258
    if C.has n target then .here target
    else
      match getByID C.cfg W n target with
      | .ok info => resolve C n ty info
      | .error e => .unknown e

/-- The address book after the decision: L265. (core/node/system_impl.go:264-270) -/
def effect (C : Cluster) (W : World) (n : Nat) : Decision → World
  | .stale id w => (unregister C.cfg none W n id w).1
  | _ => W

/-- Where a message ends up. (core/node/system_impl.go:197-275) -/
inductive Outcome
  /-- handed to the actor with this id on node `n` -/
  | delivered (n : Nat) (id : String)
  /-- an error at node `n`, nothing delivered -/
  | failed (n : Nat)
  /-- a panic at node `n`, nothing delivered -/
  | crashed (n : Nat)
  /-- nobody listens at the address -/
  | lost (n : Nat)
deriving DecidableEq

/-- The outcome of a decision that does not forward. (core/node/system_impl.go:197-275) -/
def Decision.outcome (n : Nat) : Decision → Option Outcome
  | .empty => some (.failed n)
  | .here id => some (.delivered n id)
  | .unknown _ => some (.failed n)
  | .stale _ _ => some (.failed n)
  | .crash => some (.crashed n)
  | .forward _ => none

/-- `Travel C W target ty n k o`: a `Call` or `Send` made at node `n` ends with `o` after `k` remote hops.
At the other end the acceptor calls `Call` with the target and type of the header, so symbols are resolved
again there (system_acceptor.go:103-106). -/
inductive Travel (C : Cluster) (W : World) (target ty : String) : Nat → Nat → Outcome → Prop
  | stop {n : Nat} {or : Oracle} {o : Outcome} : or.Valid C W n ty →
      (route C W n target ty or).outcome n = some o → Travel C W target ty n 0 o
  | hop {n m k : Nat} {or : Oracle} {a : Addr} {o : Outcome} : or.Valid C W n ty →
      route C W n target ty or = .forward a → C.listen a.ip a.port = some m →
      Travel C W target ty m k o → Travel C W target ty n (k + 1) o
  | lost {n : Nat} {or : Oracle} {a : Addr} : or.Valid C W n ty →
      route C W n target ty or = .forward a → C.listen a.ip a.port = none →
      Travel C W target ty n 0 (.lost n)

/-! ### What the caller sees -/

/-- How a call ends at a node. (core/node/system_impl.go:197-437) -/
inductive Ret
  | nil
  | error
  | panic
deriving DecidableEq

/-- system_acceptor.go:94-114 `Routing`: the error of `Call` is logged and dropped; a panic becomes an error
of the remote procedure call (L48-56, L63). -/
def routing : Ret → Ret
  | .nil => .nil
  | .error => .nil
  | .panic => .error

/-- system_impl.go:347-361 `handleRemoteCall`: `none` is a failure of the transport. -/
def handleRemoteCall : Option Ret → Ret
  | none => .error
  | some r => match r with
    | .nil => .nil
    | _ => .error

/-- What `localCall` returns for the actor with this id on node `n` (L293-345): nil, or an error because
`Received` refused, the wait expired, or the context ended. Which one is the subject of `Verif/CallTree`.
(core/node/system_impl.go:293-345) -/
abbrev LocalRet := Nat → String → Ret

/-- `Answer C W loc target ty n r`: a `Call` made at node `n` returns `r` there (`panic` instead of a return
for a decision that crashes). (core/node/system_impl.go:223-274) -/
inductive Answer (C : Cluster) (W : World) (loc : LocalRet) (target ty : String) : Nat → Ret → Prop
  /-- L234, L243, L252 -/
  | here {n : Nat} {or : Oracle} {id : String} : or.Valid C W n ty →
      route C W n target ty or = .here id → Answer C W loc target ty n (loc n id)
  /-- L223, L239, L261, L270 -/
  | error {n : Nat} {or : Oracle} : or.Valid C W n ty →
      (route C W n target ty or).outcome n = some (.failed n) → Answer C W loc target ty n .error
  /-- L265 -/
  | panic {n : Nat} {or : Oracle} : or.Valid C W n ty →
      route C W n target ty or = .crash → Answer C W loc target ty n .panic
  /-- L274: the request arrives and is answered -/
  | hop {n m : Nat} {or : Oracle} {a : Addr} {r : Ret} : or.Valid C W n ty →
      route C W n target ty or = .forward a → C.listen a.ip a.port = some m →
      Answer C W loc target ty m r → Answer C W loc target ty n (handleRemoteCall (some (routing r)))
  /-- L274: the transport fails (nobody listens, a connection breaks, a deadline passes) -/
  | lost {n : Nat} {or : Oracle} {a : Addr} : or.Valid C W n ty →
      route C W n target ty or = .forward a → Answer C W loc target ty n (handleRemoteCall none)

end Braid.System
