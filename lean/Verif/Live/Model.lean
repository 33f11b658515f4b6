import Verif.Register.Model

/-
Model of calls that run while actors are created and removed: `NormalSystem.Call` and `Send`
(core/node/system_impl.go:197-291, 363-437) as far as they find their target, with the cleanup of records that
they take for stale (L264-270, L428-434), by any number of goroutines on any number of nodes, together with the
`Register` and `Unregister` of `Verif/Register`. Every access to shared state is one step: the map of a node,
its `IDMap`, and each Redis command.

Simplified: `GetWildcardActor` (core/addressbook/addressbook_impl.go:191-236) is one step that gives any record of the
type or fails; which one it prefers is the subject of C35. What is done with the message once the target is
known is in `Verif/CallTree` and `Verif/System`.
-/
namespace Braid.Live
open AddressBook

/-- What a `Call` or `Send` comes to at this node, if it does not clean up. (core/node/system_impl.go:222-274) -/
inductive Res
  /-- L234, L243, L252: the message goes to this actor of the node -/
  | here (id : String)
  /-- L274: to another node -/
  | forward (a : Addr)
  /-- L223, L261: there is no such actor -/
  | unknown
  /-- L239, L261: Redis failed, or no actor of the type can be picked -/
  | failed
  /-- L265-270: `ErrSelfCall`, the record to be cleaned up has no id -/
  | selfCall
  /-- L265: `factory.Get(actorType)` is nil -/
  | panic
deriving DecidableEq

/-- Where a call is. (core/node/system_impl.go:222-270) -/
inductive Pt
  /-- L247: about to look into the map -/
  | map
  /-- L256, addressbook_impl.go:141: about to look into the `IDMap` -/
  | book
  /-- addressbook_impl.go:148: about to ask Redis -/
  | redis
  /-- L228: about to pick an actor -/
  | pick
  /-- L231: about to look the picked actor up in the map -/
  | check (a : Addr)
  /-- L280: about to look for an actor of the type in the map -/
  | scan
  /-- L289: about to pick an actor, there is none here -/
  | pick2
  /-- L264: about to compare the address with that of the node -/
  | resolve (a : Addr)
  /-- L265: in `addressbook.Unregister` -/
  | clean
deriving DecidableEq

/-- A goroutine in no call, or in the call of `target` with type `ty` on node `n`.
(core/node/system_impl.go:197-275, 363-437) -/
inductive CPc
  | idle
  | at_ (p : Pt) (n : Nat) (target ty : String)
deriving DecidableEq

/-- What can be observed. (core/node/system_impl.go:99-275) -/
inductive Ev
  | call (g n : Nat) (target ty : String)
  | ret (g : Nat) (r : Res)
  /-- `Register`, `Unregister`, and the cleanup, whose end is the return of the call with `ErrSelfCall` -/
  | reg (e : Register.Ev)
deriving DecidableEq

/-- core/node/system_impl.go:24-42. -/
structure State where
  r : Register.State
  c : Nat → CPc

/-- Nothing registered. (core/node/system_impl.go:46-89) -/
def init : State := ⟨Register.init, fun _ => .idle⟩

/-- core/node/system_impl.go:99-275. -/
inductive Act
  /-- `Register`, `Unregister` or a cleanup goes on -/
  | reg (a : Register.Act)
  | call (g n : Nat) (target ty : String)
  /-- the call of `g` goes on -/
  | go (g : Nat)
  /-- `GetWildcardActor` of `g` gives `a` -/
  | pick (g : Nat) (a : Addr)
  /-- L281-285: `g` finds the actor `id` in the map -/
  | found (g : Nat) (id : String)
  /-- Redis fails -/
  | fail (g : Nat)

variable (cfg : Nat → NodeCfg) (factory : Nat → String → Option Int)

/-- The call of `g` returns. (core/node/system_impl.go:222-274) -/
def ret (s : State) (g : Nat) (r : Res) : Option (State × List Ev) :=
  some ({ s with c := upd s.c g .idle }, [.ret g r])

/-- The call of `g` goes on. (core/node/system_impl.go:222-274) -/
def goTo (s : State) (g : Nat) (p : CPc) : Option (State × List Ev) := some ({ s with c := upd s.c g p }, [])

/-- One step of the call of `g`. (core/node/system_impl.go:245-274) -/
def stepGo (s : State) (g : Nat) : Option (State × List Ev) :=
  match s.c g with
  | .idle => none
  | .at_ p n target ty =>
    match p with
    | .map => -- L247-253
      if Register.get (s.r.map n) target ≠ none then ret s g (.here target)
      else goTo s g (.at_ .book n target ty)
    | .book => -- addressbook_impl.go:141-146
      if s.r.W.idmap n target then
        goTo s g (.at_ (.resolve ⟨target, "", (cfg n).nodeID, (cfg n).ip, (cfg n).port⟩) n target ty)
      else goTo s g (.at_ .redis n target ty)
    | .redis => -- addressbook_impl.go:148-162
      match s.r.W.redis.ids target with
      | none => ret s g .unknown
      | some a => goTo s g (.at_ (.resolve a) n target ty)
    | .check a => -- L231-235
      if Register.get (s.r.map n) a.actorId ≠ none then ret s g (.here a.actorId)
      else goTo s g (.at_ (.resolve a) n target ty)
    | .scan => -- L280-286: none of the type
      if (s.r.map n).any (fun p => (s.r.inst p.2).ty = ty) then none
      else goTo s g (.at_ .pick2 n target ty)
    | .resolve a => -- L264-274
      if a.ip = (cfg n).ip ∧ a.port = (cfg n).port then
        match factory n ty with
        | none => ret s g .panic
        | some w => -- addressbook_impl.go:98-101
          if a.actorId = "" then ret s g .selfCall
          else
            match Register.step cfg factory s.r (.start g (.clean n a.actorId w)) with
            | some (r, e) => some (⟨r, upd s.c g (.at_ .clean n target ty)⟩, e.map .reg)
            | none => none
      else ret s g (.forward a)
    | _ => none

/-- core/node/system_impl.go:99-291, 363-437. -/
def step (s : State) : Act → Option (State × List Ev)
  | .reg a =>
    match a with
    | .start g o =>
      match s.c g, o with
      | .idle, .clean _ _ _ => none
      | .idle, o =>
        match Register.step cfg factory s.r (.start g o) with
        | some (r, e) => some (⟨r, s.c⟩, e.map .reg)
        | none => none
      | _, _ => none
    | .go g =>
      match Register.step cfg factory s.r (.go g) with
      | some (r, e) => some (⟨r, if r.pc g = .idle then upd s.c g .idle else s.c⟩, e.map .reg)
      | none => none
    | .fail g =>
      match Register.step cfg factory s.r (.fail g) with
      | some (r, e) => some (⟨r, if r.pc g = .idle then upd s.c g .idle else s.c⟩, e.map .reg)
      | none => none
  | .call g n target ty => -- L197-226
    match s.c g, s.r.pc g with
    | .idle, .idle =>
      if target = "" then some (s, [.call g n target ty, .ret g .unknown])
      else
        let p : Pt := if target = "?" then .pick else if target = "~" then .scan else .map
        some ({ s with c := upd s.c g (.at_ p n target ty) }, [.call g n target ty])
    | _, _ => none
  | .go g => stepGo cfg factory s g
  | .pick g a => -- L228, L289
    match s.c g with
    | .at_ .pick n target ty =>
      if a ∈ s.r.W.redis.tys ty then goTo s g (.at_ (.check a) n target ty) else none
    | .at_ .pick2 n target ty =>
      if a ∈ s.r.W.redis.tys ty then goTo s g (.at_ (.resolve a) n target ty) else none
    | _ => none
  | .found g id => -- L281-285
    match s.c g with
    | .at_ .scan n _ ty =>
      match Register.get (s.r.map n) id with
      | some i => if (s.r.inst i).ty = ty then ret s g (.here id) else none
      | none => none
    | _ => none
  | .fail g =>
    match s.c g with
    | .at_ .redis _ _ _ => ret s g .failed -- addressbook_impl.go:149-154
    | .at_ .pick _ _ _ => ret s g .failed -- L260-262
    | .at_ .pick2 _ _ _ => ret s g .failed -- L238-240
    | _ => none

/-- The cluster. (core/node/system_impl.go:99-437) -/
def sys : Lts State Act Ev := ⟨init, step cfg factory⟩

end Braid.Live
