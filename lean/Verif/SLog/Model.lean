import Verif.Lib.Lts

/-
Model of the logger of the process: the variable `sLog` of lib/log (mlog.go:11), `SetSLog`, `Sync` (options.go:275-277, 289-291),
`ExportSLog` (mlog.go:22-28), `NewServerLogger` (options.go:217-226) and the functions of the package that log
(helper.go:131-170). What a record looks like is in `Verif/LogLib` and `Verif/Where`; here only which logger it goes to, and with
which tag. Each call is one step: the variable has no lock, and calls that overlap are a data race, which is left out.
-/
namespace Braid.SLog

/-- `helper`: the logger of zap and the tag. (lib/log/helper.go:19-26) -/
structure Helper where
  logger : Nat
  tag : String
deriving DecidableEq

/-- The calls. (lib/log/options.go:217-291, lib/log/mlog.go:22-28, lib/log/helper.go:131-170) -/
inductive Act
  /-- `NewServerLogger` with options that make this logger -/
  | create (l : Nat) (tag : String)
  /-- `&ServerLog{}` -/
  | literal
  /-- `SetSLog`, with nil or an object -/
  | set (p : Option Nat)
  /-- `ExportSLog`, with nil or a logger -/
  | exportSLog (l : Option Nat) (tag : String)
  /-- a function of the package that logs, or `Sync` -/
  | pkg
  /-- a method of an object -/
  | own (i : Nat)
deriving DecidableEq

/-- What is seen: `none` is a panic. (lib/log/options.go:217-291, lib/log/mlog.go:22-28, lib/log/helper.go:131-170) -/
inductive Ev
  | created (i l : Nat) (tag : String)
  | literal (i : Nat)
  | set (p : Option Nat)
  | exported (l : Nat) (tag : String)
  | exportPanic
  | pkg (r : Option Helper)
  | own (i : Nat) (r : Option Helper)
deriving DecidableEq

/-- The objects (`ServerLog`, an interface value that may be nil), how many there are, and the variable.
(lib/log/mlog.go:7-11) -/
structure State where
  heap : Nat → Option Helper
  free : Nat
  sLog : Option Nat

/-- lib/log/mlog.go:11: at the start the variable has object 0, with logger 0 and no tag. (The error of `NewServerLogger` is
dropped there; without options it has none.) -/
def init : State := ⟨fun i => if i = 0 then some ⟨0, ""⟩ else none, 1, some 0⟩

/-- The steps. (lib/log/options.go:217-291, lib/log/mlog.go:22-28, lib/log/helper.go:131-170) -/
def step (s : State) : Act → Option (State × List Ev)
  | .create l t => -- options.go:218-225
    some ({ s with heap := upd s.heap s.free (some ⟨l, t⟩), free := s.free + 1 }, [.created s.free l t])
  | .literal => some ({ s with heap := upd s.heap s.free none, free := s.free + 1 }, [.literal s.free])
  | .set none => some ({ s with sLog := none }, [.set none]) -- options.go:276
  | .set (some i) => if i < s.free then some ({ s with sLog := some i }, [.set (some i)]) else none
  | .exportSLog none _ => some (s, [.exportPanic]) -- mlog.go:26
  | .exportSLog (some l) t => -- mlog.go:24
    match s.sLog with
    | none => some (s, [.exportPanic])
    | some i => some ({ s with heap := upd s.heap i (some ⟨l, t⟩) }, [.exported l t])
  | .pkg => -- helper.go:131-170, options.go:290
    match s.sLog with
    | none => some (s, [.pkg none])
    | some i => some (s, [.pkg (s.heap i)])
  | .own i => if i < s.free then some (s, [.own i (s.heap i)]) else none

/-- The process. (lib/log/mlog.go:11) -/
def sys : Lts State Act Ev := ⟨init, step⟩

end Braid.SLog
