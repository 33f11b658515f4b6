/-
Model of `3rd/mgo/mgr.go` `Build` and `Collection` with the options of `3rd/mgo/mgr_opts.go`.

Simplifications: connections to MongoDB are made or fail as a given function of their position says; a client is known
by its address. `sync.Once` counts a function that panics as done (go 1.22). Calls are made one after the other; a
`Build` during another one waits in `once.Do`.
-/
namespace Braid.Mgo

/-- `mgr_opts.go` L9-12. (3rd/mgo/mgr_opts.go:9-12) -/
structure ConnInfo where
  addr : String
  name : String
deriving DecidableEq

/-- The options: `AppendConn(info)`; the others do not touch the connections. (3rd/mgo/mgr_opts.go:26-60) -/
inductive Opt
  | appendConn (c : ConnInfo)
  | other
deriving DecidableEq

/-- `mgr_opts.go` L32-40 `_checkRepeat`. (3rd/mgo/mgr_opts.go:32-40) -/
def checkRepeat (conns : List ConnInfo) (addr : String) : Bool := conns.any (·.addr = addr)

/-- `mgr_opts.go` L54-60 `AppendConn`. (3rd/mgo/mgr_opts.go:54-60) -/
def applyOpt (conns : List ConnInfo) : Opt → List ConnInfo
  | .appendConn c => if !checkRepeat conns c.addr then conns ++ [c] else conns
  | .other => conns

/-- `mgr.go` L30-33. (3rd/mgo/mgr.go:30-33) -/
def connsOf (opts : List Opt) : List ConnInfo := opts.foldl applyOpt []

/-- The globals: `once` (L24), and `mgrPtr` (L23) with the address of the client of each name.
(3rd/mgo/mgr.go:23-24) -/
structure State where
  done : Bool
  mgr : Option (String → Option String)

/-- L40-60: the connections one by one; `ok i` tells whether connecting to and pinging the `i`th succeeds. The result
is the map, and whether there was no panic. (3rd/mgo/mgr.go:40-60) -/
def connect (ok : Nat → Bool) (m : String → Option String) : Nat → List ConnInfo → (String → Option String) × Bool
  | _, [] => (m, true)
  | i, c :: cs =>
    if ok i then connect ok (fun n => if n = c.name then some c.addr else m n) (i + 1) cs else (m, false)

/-- L27-64 `Build`: the new state, and whether it returned (nil) rather than panicked. (3rd/mgo/mgr.go:27-64) -/
def build (s : State) (opts : List Opt) (ok : Nat → Bool) : State × Bool :=
  if s.done then (s, true)
  else (⟨true, some (connect ok (fun _ => none) 0 (connsOf opts)).1⟩, (connect ok (fun _ => none) 0 (connsOf opts)).2)

/-- L66-78 `Collection`: the address of the client used, or a panic (`none`). (3rd/mgo/mgr.go:66-78) -/
def collection (s : State) (db : String) : Option String := s.mgr.bind (· db)

/-- Before the first `Build`. (3rd/mgo/mgr.go:14-25) -/
def init : State := ⟨false, none⟩

/-- Several builds. (3rd/mgo/mgr.go:27-64) -/
def builds (s : State) : List (List Opt × (Nat → Bool)) → State
  | [] => s
  | (o, k) :: r => builds (build s o k).1 r

end Braid.Mgo
