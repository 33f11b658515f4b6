import Verif.AddressBook.Model

/-
The counters of the address book as Redis and Go have them: 64 bits (C33).
-/
namespace Braid.AddressBook

/-- Fits into an `int64`. (core/addressbook/addressbook_impl.go:83-84) -/
def fits64 (x : Int) : Bool := -2 ^ 63 ≤ x ∧ x < 2 ^ 63

/-- core/addressbook/addressbook_impl.go:121-122: `int64(-weight)`; the smallest number is its own negation. -/
def neg64 (w : Int) : Int := if w = -2 ^ 63 then w else -w

/-- Effect of a command, and whether it succeeds: HINCRBY fails, and changes nothing, if the sum does not fit.
(core/addressbook/addressbook_impl.go:76-84, 117-122) -/
def Redis.run64 (r : Redis) : Cmd → Redis × Bool
  | .hincr n f w => if fits64 ((hget f (r.load n)).getD 0 + w) then (r.run (.hincr n f w), true) else (r, false)
  | c => (r.run c, true)

/-- A pipeline: a command that fails does not keep the ones after it from being executed; `Exec` returns the first error.
(core/addressbook/addressbook_impl.go:86-89, 124-131) -/
def Redis.pipe64 (r : Redis) : List Cmd → Redis × Bool
  | [] => (r, true)
  | c :: cs => (((r.run64 c).1.pipe64 cs).1, (r.run64 c).2 && ((r.run64 c).1.pipe64 cs).2)

variable (cfg : Nat → NodeCfg)

/-- core/addressbook/addressbook_impl.go:46-96 `Register`, when Redis answers. -/
def register64 (W : World) (n : Nat) (ty id : String) (w : Int) : World × Bool :=
  if id = "" ∨ ty = "" then (W, false)
  else if W.idmap n id then (W, false)
  else
    match W.redis.pipe64 (registerCmds cfg n ty id w) with
    | (r, false) => ({ W with redis := r }, false) -- L87-89
    | (r, true) => (⟨r, fun m x => if m = n ∧ x = id then true else W.idmap m x⟩, true)

/-- core/addressbook/addressbook_impl.go:116-122: the pipeline of Unregister. -/
def unregisterCmds64 (n : Nat) (a : Addr) (id : String) (w : Int) : List Cmd :=
  [.hdelId id,
   .srem a.actorTy a,
   .hincr (cfg n).nodeID (.actor a.actorTy) (neg64 w),
   .hincr (cfg n).nodeID .total (neg64 w)]

/-- core/addressbook/addressbook_impl.go:98-132 `Unregister`, when Redis answers. -/
def unregister64 (W : World) (n : Nat) (id : String) (w : Int) : World × Bool :=
  if id = "" then (W, false)
  else
    match W.redis.ids id with
    | none => (W, false)
    | some a =>
      match W.redis.pipe64 (unregisterCmds64 cfg n a id w) with
      | (r, false) => ({ W with redis := r }, false) -- L131
      | (r, true) => (⟨r, fun m x => if m = n ∧ x = id then false else W.idmap m x⟩, true)

/-- core/addressbook/addressbook_impl.go:46-370. -/
def apply64 (W : World) : Op → World
  | .register n ty id w => (register64 cfg W n ty id w).1
  | .unregister n id w => (unregister64 cfg W n id w).1
  | .clear n => clear cfg W n

/-- core/addressbook/addressbook_impl.go:46-370. -/
def runOps64 (ops : List Op) : World := ops.foldl (apply64 cfg) World.init

end Braid.AddressBook
