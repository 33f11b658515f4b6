import Verif.Names.Model

/-
Model of the places in the source that errors and logs show: `lib/errcode/errcode.go` (`Add`, `New`, `Unknow`,
`messageWithLine`) and `lib/log/helper.go` (`getStackTrace`, `Log`, `SystemLog`, `SystemReqInfo` and the functions of the
package that call them), with `runtime.Caller`, `runtime.Callers` and the option `AddCallerSkip` of zap.

A call puts a frame on the stack of the goroutine; the line of a frame is that of the call it is in. `runtime.Caller` counts
inlined functions like others and leaves out the wrappers that the compiler makes, so neither is modelled.
-/
namespace Braid.Where

open Names

/-- A frame of `runtime.Frames`. (lib/log/helper.go:39-43, lib/errcode/errcode.go:109) -/
structure Frame where
  fn : String
  file : Bytes
  line : Nat
deriving DecidableEq

/-- The stack of a goroutine, the function that runs first. (lib/log/helper.go:32, lib/errcode/errcode.go:109) -/
abbrev Stack := List Frame

/-- The path of a file of this repository, by its bytes, without the directory of the checkout.
(lib/errcode/errcode.go:109) -/
def path (s : String) : Bytes := s.toUTF8.toList

/-- `runtime.Caller(k)`, called by the first function of the stack: file and line; empty and 0 above the last frame.
(lib/errcode/errcode.go:109) -/
def caller (k : Nat) (st : Stack) : Bytes × Nat :=
  match st[k]? with
  | some f => (f.file, f.line)
  | none => ([], 0)

/-- errcode.go L108-111 `messageWithLine`: file and line of its result; the text that follows is left out. -/
def messageWithLine (st : Stack) : Bytes × Nat :=
  let c := caller 3 (⟨"errcode.messageWithLine", path "lib/errcode/errcode.go", 109⟩ :: st)
  (shortFile c.1, c.2)

/-- errcode.go L23-25 `Add`, called by the first function of the stack: the place in the detail of the code. -/
def add (st : Stack) : Bytes × Nat :=
  messageWithLine (⟨"errcode.Add", path "lib/errcode/errcode.go", 24⟩ :: st)

/-- errcode.go L16-21 `New`; `none`: panic. -/
def new (e : Int) (st : Stack) : Option (Bytes × Nat) :=
  if e ≤ 0 then none else some (add (⟨"errcode.New", path "lib/errcode/errcode.go", 20⟩ :: st))

/-- errcode.go L12 `Unknow`. -/
def unknow (st : Stack) : Bytes × Nat :=
  add (⟨"errcode.init.func1", path "lib/errcode/errcode.go", 12⟩ :: st)

/-- `runtime.Callers(k, pcs)`, called by the first function of the stack, with `n` elements in `pcs`: 0 is `Callers` itself.
(lib/log/helper.go:32) -/
def callers (k n : Nat) (st : Stack) : List Frame :=
  ((⟨"runtime.Callers", path "runtime/extern.go", 0⟩ :: st).drop k).take n

/-- helper.go L28-49 `getStackTrace`: the frames written, in order. (The loop writes one empty frame if there are none.) -/
def getStackTrace (st : Stack) : List Frame :=
  callers 2 64 (⟨"log.getStackTrace", path "lib/log/helper.go", 32⟩ :: st)

/-- What a record shows of its origin: the frame of `zap.AddCaller`, and the field `stack_trace`.
(lib/log/helper.go:83-115, lib/log/options.go:268) -/
structure Shown where
  level : Int
  caller : Option Frame
  trace : Option (List Frame)
deriving DecidableEq

/-- The method of `zap.Logger` for a level, called by the first function of the stack, with `AddCallerSkip(skip)`; the logger
is one with callers (options.go L268). Negative numbers to skip are left out. (lib/log/helper.go:99-114, lib/log/options.go:268) -/
def zapLog (skip : Nat) (level : Int) (trace : Option (List Frame)) (st : Stack) : Shown :=
  ⟨level, st[skip]?, trace⟩

/-- The frame of the method `Log` at a line. (lib/log/helper.go:78-115) -/
def inLog (line : Nat) : Frame := ⟨"log.(*helper).Log", path "lib/log/helper.go", line⟩

/-- helper.go L78-115 `Log`, for levels that are enabled; zap's levels are Debug -1, Info 0, Warn 1, Error 2, DPanic 3, Panic 4,
Fatal 5; `none`: nothing is written. What is printed on the console is the same trace (L90-95). -/
def log (skip : Nat) (level : Int) (st : Stack) : Option Shown :=
  let trace := if level = 2 ∨ level = 1 then some (getStackTrace (inLog 87 :: st)) else none
  if level = -1 then some (zapLog skip level none (inLog 101 :: st))
  else if level = 0 then some (zapLog skip level none (inLog 103 :: st))
  else if level = 1 then some (zapLog skip level trace (inLog 105 :: st))
  else if level = 2 then some (zapLog skip level trace (inLog 107 :: st))
  else if level = 3 then some (zapLog skip level none (inLog 109 :: st))
  else if level = 4 then some (zapLog skip level none (inLog 111 :: st))
  else if level = 5 then some (zapLog skip level none (inLog 113 :: st))
  else none

/-- The frame of the method `SystemLog` at a line. (lib/log/helper.go:51-68) -/
def inSystemLog (line : Nat) : Frame := ⟨"log.(*helper).SystemLog", path "lib/log/helper.go", line⟩

/-- helper.go L51-68 `SystemLog`, for levels that are enabled. -/
def systemLog (skip : Nat) (level : Int) (st : Stack) : Option Shown :=
  if level = -1 then some (zapLog skip level none (inSystemLog 60 :: st))
  else if level = 0 then some (zapLog skip level none (inSystemLog 62 :: st))
  else if level = 1 then some (zapLog skip level none (inSystemLog 64 :: st))
  else if level = 2 then some (zapLog skip level none (inSystemLog 66 :: st))
  else none

/-- helper.go L70-76 `SystemReqInfo`, if enabled. -/
def systemReqInfo (skip : Nat) (st : Stack) : Option Shown :=
  some (zapLog skip 0 none (⟨"log.(*helper).SystemReqInfo", path "lib/log/helper.go", 75⟩ :: st))

/-- The methods of the interface `Helper` that write a record. (lib/log/helper.go:12-17) -/
inductive Method
  | log (level : Int)
  | systemLog (level : Int)
  | systemReqInfo
deriving DecidableEq

/-- A call of a method of a `ServerLog`, by the first function of the stack. (lib/log/helper.go:12-17, lib/log/mlog.go:7-9) -/
def callMethod (skip : Nat) : Method → Stack → Option Shown
  | .log l, st => log skip l st
  | .systemLog l, st => systemLog skip l st
  | .systemReqInfo, st => systemReqInfo skip st

/-- The functions of the package, helper.go L132-170. -/
inductive Fn
  | systemDebug | systemInfo | systemWarn | systemError | systemReqInfo
  | debugF | infoF | errorF | warnF | panicF
deriving DecidableEq

/-- The name of each function, the line of its call and the method called. (lib/log/helper.go:132-170) -/
def Fn.body : Fn → String × Nat × Method
  | .systemDebug => ("log.SystemDebug", 133, .systemLog (-1))
  | .systemInfo => ("log.SystemInfo", 137, .systemLog 0)
  | .systemWarn => ("log.SystemWarn", 141, .systemLog 1)
  | .systemError => ("log.SystemError", 145, .systemLog 2)
  | .systemReqInfo => ("log.SystemReqInfo", 149, .systemReqInfo)
  | .debugF => ("log.DebugF", 153, .log (-1))
  | .infoF => ("log.InfoF", 157, .log 0)
  | .errorF => ("log.ErrorF", 161, .log 2)
  | .warnF => ("log.WarnF", 165, .log 1)
  | .panicF => ("log.PanicF", 169, .log 4)

/-- A call of a function of the package, by the first function of the stack. (lib/log/helper.go:132-170) -/
def callFn (skip : Nat) (f : Fn) (st : Stack) : Option Shown :=
  callMethod skip f.body.2.2 (⟨f.body.1, path "lib/log/helper.go", f.body.2.1⟩ :: st)

end Braid.Where
