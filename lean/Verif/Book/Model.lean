import Verif.Lib.Lts
import Verif.AddressBook.Model

/-
Model of the address book (core/addressbook/addressbook_impl.go) used by any number of goroutines on any number of
nodes at the same time: every Redis command and every access to an `IDMap` is one step, and every Redis access may fail.
The commands and the records are those of `Verif/AddressBook/Model.lean`.

Simplified: the distributed lock of `Clear` (L319-323) is left out, so two `Clear` of one node may overlap here; its failure
is a failure of the first Redis access.
-/
namespace Braid.Book
open AddressBook

/-- A call of the address book. (core/addressbook/addressbook_impl.go:46-370) -/
inductive Op
  /-- `Register` on node `n` -/
  | reg (n : Nat) (ty id : String) (w : Int)
  /-- `Unregister` on node `n` -/
  | unreg (n : Nat) (id : String) (w : Int)
  /-- `GetByID` on node `n` -/
  | get (n : Nat) (id : String)
  /-- `GetByType` -/
  | list (ty : String)
  /-- `Clear` on node `n` -/
  | clear (n : Nat)
deriving DecidableEq

/-- How a call ends. (core/addressbook/addressbook_impl.go:46-370) -/
inductive Res
  /-- nil -/
  | ok
  /-- an error: an empty argument (L47, L99, L137) or an id that the node has (L52) -/
  | refused
  /-- there is no such record (L106, L151) -/
  | unknown
  /-- a Redis access failed -/
  | broken
  /-- `GetByID` returned an address -/
  | found (a : Addr)
  /-- `GetByType` returned addresses -/
  | members (l : List Addr)
deriving DecidableEq

/-- Where a goroutine is. (core/addressbook/addressbook_impl.go:46-370) -/
inductive Pc
  | idle
  /-- L47-56 -/
  | rBook (n : Nat) (ty id : String) (w : Int)
  /-- L75-86: `k` commands of the pipeline were executed -/
  | rPipe (n : Nat) (ty id : String) (w : Int) (k : Nat)
  /-- L91-93 -/
  | rIdmap (n : Nat) (ty id : String) (w : Int)
  /-- L99-113 -/
  | uGet (n : Nat) (id : String) (w : Int)
  /-- L116-124: `k` commands of the pipeline were executed -/
  | uPipe (n : Nat) (a : Addr) (id : String) (w : Int) (k : Nat)
  /-- L126-128 -/
  | uIdmap (n : Nat) (id : String) (w : Int)
  /-- L137-146 -/
  | gBook (n : Nat) (id : String)
  /-- L148 -/
  | gGet (n : Nat) (id : String)
  /-- L167 -/
  | lGet (ty : String)
  /-- L327 -/
  | cGet (n : Nat)
  /-- L335-358: about to look at the types `tys`, the pipeline consists of `cmds` -/
  | cMem (n : Nat) (tys : List String) (cmds : List Cmd)
  /-- L364: the commands `cmds` of the pipeline are left -/
  | cPipe (n : Nat) (cmds : List Cmd)

/-- The call a goroutine is in. (core/addressbook/addressbook_impl.go:46-370) -/
def Pc.op : Pc → Option Op
  | .idle => none
  | .rBook n ty id w => some (.reg n ty id w)
  | .rPipe n ty id w _ => some (.reg n ty id w)
  | .rIdmap n ty id w => some (.reg n ty id w)
  | .uGet n id w => some (.unreg n id w)
  | .uPipe n _ id w _ => some (.unreg n id w)
  | .uIdmap n id w => some (.unreg n id w)
  | .gBook n id => some (.get n id)
  | .gGet n id => some (.get n id)
  | .lGet ty => some (.list ty)
  | .cGet n => some (.clear n)
  | .cMem n _ _ => some (.clear n)
  | .cPipe n _ => some (.clear n)

/-- What can be observed: calls and returns. (core/addressbook/addressbook_impl.go:46-370) -/
inductive Ev
  | begin (g : Nat) (o : Op)
  | finish (g : Nat) (o : Op) (r : Res)
deriving DecidableEq

/-- Redis, the `IDMap`s and the goroutines. (core/addressbook/addressbook_impl.go:23-31) -/
structure State where
  W : World
  pc : Nat → Pc

/-- Nothing registered. (core/addressbook/addressbook_impl.go:33-40) -/
def init : State := ⟨World.init, fun _ => .idle⟩

/-- What happens next. (core/addressbook/addressbook_impl.go:46-370) -/
inductive Act
  /-- a goroutine makes a call -/
  | start (g : Nat) (o : Op)
  /-- it makes a step -/
  | go (g : Nat)
  /-- L327-335: `Clear` reads the hash of its node; it will go through the types in the order `tys` -/
  | range (g : Nat) (tys : List String)
  /-- a Redis access of it fails -/
  | fail (g : Nat)

/-- `IDMap[id] = true`, or `delete(IDMap, id)`. (core/addressbook/addressbook_impl.go:91-93, 126-128) -/
def setIdmap (W : World) (n : Nat) (id : String) (v : Bool) : World :=
  { W with idmap := fun m x => if m = n ∧ x = id then v else W.idmap m x }

/-- A Redis command is executed. (core/addressbook/addressbook_impl.go:86, 124, 364) -/
def exec1 (W : World) (c : Cmd) : World := { W with redis := W.redis.run c }

variable (cfg : Nat → NodeCfg)

/-- The commands that `Clear` on node `n` adds for a type with the members `l`. (core/addressbook/addressbook_impl.go:347-357) -/
def clearTy (n : Nat) (ty : String) (l : List Addr) : List Cmd :=
  (l.filter fun a => a.node = (cfg n).nodeID).flatMap fun a => [.srem ty a, .hdelId a.actorId]

/-- The call of `g` returns. (core/addressbook/addressbook_impl.go:46-370) -/
def ret (s : State) (g : Nat) (o : Op) (r : Res) : Option (State × List Ev) :=
  some ({ s with pc := upd s.pc g .idle }, [.finish g o r])

/-- The goroutine `g` moves on. (core/addressbook/addressbook_impl.go:46-370) -/
def at_ (s : State) (g : Nat) (p : Pc) : Option (State × List Ev) := some ({ s with pc := upd s.pc g p }, [])

/-- One step of goroutine `g`. (core/addressbook/addressbook_impl.go:46-370) -/
def stepGo (s : State) (g : Nat) : Option (State × List Ev) :=
  match s.pc g with
  | .idle => none
  | .rBook n ty id w => -- L47-56
    if id = "" ∨ ty = "" then ret s g (.reg n ty id w) .refused
    else if s.W.idmap n id then ret s g (.reg n ty id w) .refused
    else at_ s g (.rPipe n ty id w 0)
  | .rPipe n ty id w k => -- L75-86
    match (registerCmds cfg n ty id w)[k]? with
    | some c => some (⟨exec1 s.W c, upd s.pc g (.rPipe n ty id w (k + 1))⟩, [])
    | none => at_ s g (.rIdmap n ty id w)
  | .rIdmap n ty id w => -- L91-95
    some (⟨setIdmap s.W n id true, upd s.pc g .idle⟩, [.finish g (.reg n ty id w) .ok])
  | .uGet n id w => -- L99-113
    if id = "" then ret s g (.unreg n id w) .refused
    else
      match s.W.redis.ids id with
      | none => ret s g (.unreg n id w) .unknown
      | some a => at_ s g (.uPipe n a id w 0)
  | .uPipe n a id w k => -- L116-124
    match (unregisterCmds cfg n a id w)[k]? with
    | some c => some (⟨exec1 s.W c, upd s.pc g (.uPipe n a id w (k + 1))⟩, [])
    | none => at_ s g (.uIdmap n id w)
  | .uIdmap n id w => -- L126-131
    some (⟨setIdmap s.W n id false, upd s.pc g .idle⟩, [.finish g (.unreg n id w) .ok])
  | .gBook n id => -- L137-146
    if id = "" then ret s g (.get n id) .refused
    else if s.W.idmap n id then
      ret s g (.get n id) (.found ⟨id, "", (cfg n).nodeID, (cfg n).ip, (cfg n).port⟩)
    else at_ s g (.gGet n id)
  | .gGet n id => -- L148-162
    match s.W.redis.ids id with
    | none => ret s g (.get n id) .unknown
    | some a => ret s g (.get n id) (.found a)
  | .lGet ty => ret s g (.list ty) (.members (s.W.redis.tys ty)) -- L167-182
  | .cGet _ => none -- see `stepRange`
  | .cMem n (ty :: tys) cmds => -- L335-358
    at_ s g (.cMem n tys (cmds ++ clearTy cfg n ty (s.W.redis.tys ty)))
  | .cMem n [] cmds => -- L360-361
    at_ s g (.cPipe n (cmds ++ [.delLoad (cfg n).nodeID, .hdelNode (cfg n).nodeID]))
  | .cPipe n (c :: cmds) => some (⟨exec1 s.W c, upd s.pc g (.cPipe n cmds)⟩, []) -- L364
  | .cPipe n [] => ret s g (.clear n) .ok -- L369

/-- `Clear` reads the hash of its node (L327); Go goes through it in any order (L335).
(core/addressbook/addressbook_impl.go:327-339) -/
def stepRange (s : State) (g : Nat) (tys : List String) : Option (State × List Ev) :=
  match s.pc g with
  | .cGet n => if tys.isPerm (typesOf (s.W.redis.load (cfg n).nodeID)) then at_ s g (.cMem n tys []) else none
  | _ => none

/-- A step of `g` that fails. (core/addressbook/addressbook_impl.go:86-89, 104-107, 148-154, 167-170, 319-345, 364-367) -/
def stepFail (s : State) (g : Nat) : Option (State × List Ev) :=
  match s.pc g with
  | .rPipe n ty id w _ => ret s g (.reg n ty id w) .broken
  | .uGet n id w => ret s g (.unreg n id w) .broken
  | .uPipe n _ id w _ => ret s g (.unreg n id w) .broken
  | .gGet n id => ret s g (.get n id) .broken
  | .lGet ty => ret s g (.list ty) .broken
  | .cGet n => ret s g (.clear n) .broken
  | .cMem n _ _ => ret s g (.clear n) .broken
  | .cPipe n _ => ret s g (.clear n) .broken
  | _ => none

/-- Where a call begins. (core/addressbook/addressbook_impl.go:46, 98, 135, 166, 318) -/
def entry : Op → Pc
  | .reg n ty id w => .rBook n ty id w
  | .unreg n id w => .uGet n id w
  | .get n id => .gBook n id
  | .list ty => .lGet ty
  | .clear n => .cGet n

/-- One step. (core/addressbook/addressbook_impl.go:46-370) -/
def step (s : State) : Act → Option (State × List Ev)
  | .start g o =>
    match s.pc g with
    | .idle => some ({ s with pc := upd s.pc g (entry o) }, [.begin g o])
    | _ => none
  | .go g => stepGo cfg s g
  | .range g tys => stepRange cfg s g tys
  | .fail g => stepFail s g

/-- The address book of a cluster. (core/addressbook/addressbook_impl.go:23-370) -/
def sys : Lts State Act Ev := ⟨init, step cfg⟩

end Braid.Book
