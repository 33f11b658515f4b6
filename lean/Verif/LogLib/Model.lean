/-
Model of `lib/log/flow.go`, `lib/log/field.go` `RegisterLogField` and `lib/log/helper.go` `Log`, `SystemLog`,
`SystemReqInfo`, on top of zap.

Simplifications: a field is its name and a value; fields that are not simple values (namespaces, inlined objects) are
left out. The console output of `Log` is left out. Writing a record does not fail.
-/
namespace Braid.LogLib

/-- `zap.Field`: its key and its value; `flow.go` stores an object of fields under one key. (lib/log/flow.go:45-58) -/
inductive Val
  | atom (n : Nat)
  | obj (m : String → Option Nat)

/-- A field of a record. (lib/log/flow.go:9-16) -/
structure Field where
  key : String
  val : Val

/-- A field with a simple value. (lib/log/field.go:9-31) -/
structure Simple where
  key : String
  val : Nat
deriving DecidableEq

/-- As a field. (lib/log/mlog.go:32-60) -/
def Simple.field (s : Simple) : Field := ⟨s.key, .atom s.val⟩

/-- `flow.go` L13-16: `CommonFlow`, if any, and `BaseFields`. (lib/log/flow.go:13-16) -/
structure Flow where
  common : Option (List Simple)
  base : List Simple

/-- `flow.go` L22-35 `ZapFields`: the common fields, then the own. (lib/log/flow.go:22-35) -/
def zapFields (f : Flow) : List Simple := (f.common.getD []) ++ f.base

/-- `zapcore.MapObjectEncoder`: a field is put into the map under its name. (lib/log/flow.go:22-58) -/
def encode (m : String → Option Nat) (s : Simple) : String → Option Nat := fun k => if k = s.key then some s.val else m k

/-- `flow.go` L45-52: the loop; the fields at the top level, whether there are others, and the object of the others.
(lib/log/flow.go:45-52) -/
def split (p : String → Bool) : List Simple → List Field × Bool × (String → Option Nat) →
    List Field × Bool × (String → Option Nat)
  | [], st => st
  | v :: vs, (ret, has, enc) =>
    if p v.key then split p vs (ret, true, encode enc v) else split p vs (ret ++ [v.field], has, enc)

/-- `flow.go` L37-58 `TaDataFields`. (lib/log/flow.go:37-58) -/
def taDataFields (f : Flow) (key : String) (p : String → Bool) : List Field :=
  if key = "" then (zapFields f).map (·.field)
  else
    let (ret, has, enc) := split p (zapFields f) ([], false, fun _ => none)
    if has then ret ++ [⟨key, .obj enc⟩] else ret

/-- `field.go` L37-48 `RegisterLogField`: `none` is a panic. (lib/log/field.go:37-48) -/
def register (fs : List (String × String)) (k v : String) : Option (List (String × String)) :=
  if fs.any (·.1 = k) then none else some (fs ++ [(k, v)])

/-- Several registrations, of which those that panic change nothing. (lib/log/field.go:37-48) -/
def registerAll (fs : List (String × String)) : List (String × String) → List (String × String)
  | [] => fs
  | (k, v) :: r => registerAll ((register fs k v).getD fs) r

/-- A record: its level, and the keys of its fields. (lib/log/helper.go:51-115) -/
structure Record where
  level : Int
  keys : List String
deriving DecidableEq

/-- What a call does: the records written, and whether it panics or ends the process. (lib/log/helper.go:51-115) -/
structure Out where
  records : List Record
  stops : Bool
deriving DecidableEq

/-- zap's levels: Debug -1, Info 0, Warn 1, Error 2, DPanic 3, Panic 4, Fatal 5. The methods of `zap.Logger` write one
record if the level is at least the threshold; `Panic` panics and `Fatal` ends the process in any case (`DPanic` panics
only in development). (lib/log/helper.go:51-115) -/
def zapLog (threshold level : Int) (keys : List String) : Out :=
  ⟨if threshold ≤ level then [⟨level, keys⟩] else [], level = 4 ∨ level = 5⟩

/-- Nothing happens. (lib/log/helper.go:51-115) -/
def nothing : Out := ⟨[], false⟩

/-- `helper.go` L78-115 `Log`. (lib/log/helper.go:78-115) -/
def log (threshold level : Int) : Out :=
  if ¬ threshold ≤ level then nothing
  else if level = -1 then zapLog threshold (-1) ["ServerTag"]
  else if level = 0 then zapLog threshold 0 ["ServerTag"]
  else if level = 1 then zapLog threshold 1 ["ServerTag", "stack_trace"]
  else if level = 2 then zapLog threshold 2 ["ServerTag", "stack_trace"]
  else if level = 3 then zapLog threshold 3 ["ServerTag"]
  else if level = 4 then zapLog threshold 4 ["ServerTag"]
  else if level = 5 then zapLog threshold 5 ["ServerTag"]
  else nothing

/-- `helper.go` L121-130 `getSystemFields`, with the keys of `mlog.go` L13-20. (lib/log/helper.go:121-130, lib/log/mlog.go:13-20) -/
def systemKeys : List String := ["ServerTag", "accID", "eCode", "path", "token", "realIP"]

/-- `helper.go` L51-68 `SystemLog`. (lib/log/helper.go:51-68) -/
def systemLog (threshold level : Int) : Out :=
  if ¬ threshold ≤ level then nothing
  else if level = -1 then zapLog threshold (-1) systemKeys
  else if level = 0 then zapLog threshold 0 systemKeys
  else if level = 1 then zapLog threshold 1 systemKeys
  else if level = 2 then zapLog threshold 2 systemKeys
  else nothing

/-- `helper.go` L70-76 `SystemReqInfo`. (lib/log/helper.go:70-76) -/
def systemReqInfo (threshold : Int) : Out :=
  if ¬ threshold ≤ 0 then nothing else zapLog threshold 0 ["ServerTag", "accID", "path", "token", "realIP"]

end Braid.LogLib
