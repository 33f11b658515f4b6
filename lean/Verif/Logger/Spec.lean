import Verif.Logger.Model

/-
Specification of loggers: what the options say, read off the list of options.
-/
namespace Braid.Logger.Spec

/-- The value the last option of a kind gives, or the default. -/
def last {α : Type} (sel : Opt → Option α) (d : α) (opts : List Opt) : α := ((opts.filterMap sel).getLast?).getD d

def level (opts : List Opt) : Int := last (fun | .level l => some l | _ => none) 0 opts
def outStd (opts : List Opt) : Bool := last (fun | .outStd b => some b | _ => none) false opts
def pattern (opts : List Opt) : String := last (fun | .globPattern s => some s | _ => none) "" opts
def caller (opts : List Opt) : Bool := last (fun | .caller b => some b | _ => none) false opts
def callerFunc (opts : List Opt) : Bool := last (fun | .callerFunc b => some b | _ => none) false opts
def skip (opts : List Opt) : Nat := last (fun | .callerSkip n => some n | _ => none) 0 opts
/-- The encoder configuration, if it was given. -/
def conf (opts : List Opt) : Option (Option Nat) :=
  last (fun | .encoderConf a => some (some a) | _ => none) none opts

/-- The file the options ask for. -/
def file (opts : List Opt) : Rotation where
  globPattern := pattern opts
  linkName := last (fun | .linkName s => some s | _ => none) "" opts
  size := last (fun | .rotationSize n => some n | _ => none) (1024 * 1024 * 1024) opts
  time := last (fun | .rotationTime n => some n | _ => none) 1 opts
  maxAge := last (fun | .maxAge n => some n | _ => none) 0 opts
  count := last (fun | .rotationCount n => some n | _ => none) 0 opts

/-- Where records go: to the console if there is no file or both are wanted, and to the file if there is one. -/
def Wanted (opts : List Opt) (d : Dest) : Prop :=
  (d = .std ∧ (pattern opts = "" ∨ outStd opts = true)) ∨ (d = .file (file opts) ∧ pattern opts ≠ "")

/-- The text of a caller as the options `Caller` and `CallerFunc` describe it: file name and line, then the function. -/
def callerAs (fn : Bool) (f : Frame) : String :=
  f.file.getLastD "." ++ ":" ++ toString f.line ++ if fn then " " ++ f.fn ++ "()" else ""

/-- Options that concern files and that `NewLogger` does not read. -/
def unread : Opt → Bool
  | .suffix _ | .maxSize _ | .maxBackups _ | .compress _ => true
  | _ => false

end Braid.Logger.Spec
