import Verif.Lib.Lts

/-
Model of `lib/log/options.go` (`NewOptions`, the options, `NewLogger`) and `lib/log/rotation.go` `NewRotation`, and of
what a logger of zap built this way writes.

Encoder configurations live in a heap, since `WithEncoderConf` stores a pointer.

Simplifications: of an encoder configuration only the keys and functions for the caller are kept, the rest is one number.
Opening the rotating file succeeds or fails as a given function of its parameters says. File names are lists of path
components; functions of frames are given by their short names (`funcShortName`, C77). A record is its destination and the
text of its caller. `CallerSkip` is not negative.
-/
namespace Braid.Logger

/-- `zapcore.CallerEncoder`: that of zap (`ShortCallerEncoder`), the two of `NewLogger` (options.go L259-265), or another. -/
inductive CallerEnc
  | short
  | base
  | baseFunc
  | other (n : Nat)
deriving DecidableEq

/-- `zapcore.EncoderConfig`. (lib/log/options.go:68-80) -/
structure Conf where
  /-- `CallerKey` is not empty -/
  callerKey : Bool
  /-- `FunctionKey` is not empty -/
  functionKey : Bool
  encodeCaller : CallerEnc
  rest : Nat
deriving DecidableEq

/-- The encoder configurations by address. (lib/log/options.go:36) -/
abbrev Heap := Nat → Conf

/-- options.go L30-57 `Options`. Durations are numbers. -/
structure Options where
  suffix : String
  maxSize : Int
  maxAge : Int
  maxBackups : Int
  compress : Bool
  outStd : Bool
  /-- nil or an address -/
  encoderConf : Option Nat
  level : Int
  caller : Bool
  callerFunc : Bool
  callerSkip : Nat
  globPattern : String
  linkName : String
  rotationSize : Int
  rotationTime : Int
  logMaxAge : Int
  rotationCount : Nat
deriving DecidableEq

/-- options.go L102-213: the options; `fail` is one of the caller's own that returns an error. -/
inductive Opt
  | suffix (s : String)
  | maxSize (n : Int)
  | maxBackups (n : Int)
  | compress (b : Bool)
  | outStd (b : Bool)
  | encoderConf (a : Option Nat)
  | level (l : Int)
  | globPattern (s : String)
  | linkName (s : String)
  | rotationSize (n : Int)
  | rotationTime (n : Int)
  | maxAge (n : Int)
  | rotationCount (n : Nat)
  | caller (b : Bool)
  | callerFunc (b : Bool)
  | callerSkip (n : Nat)
  | fail
deriving DecidableEq

/-- One option function; `none`: it returns an error. (lib/log/options.go:102-214) -/
def applyOpt (o : Options) : Opt → Option Options
  | .suffix s => some { o with suffix := s }
  | .maxSize n => some { o with maxSize := n }
  | .maxBackups n => some { o with maxBackups := n }
  | .compress b => some { o with compress := b }
  | .outStd b => some { o with outStd := b }
  | .encoderConf a => some { o with encoderConf := a }
  | .level l => some { o with level := l }
  | .globPattern s => some { o with globPattern := s }
  | .linkName s => some { o with linkName := s }
  | .rotationSize n => some { o with rotationSize := n }
  | .rotationTime n => some { o with rotationTime := n }
  | .maxAge n => some { o with logMaxAge := n } -- L180-185: not `MaxAge`
  | .rotationCount n => some { o with rotationCount := n }
  | .caller b => some { o with caller := b }
  | .callerFunc b => some { o with callerFunc := b }
  | .callerSkip n => some { o with callerSkip := n }
  | .fail => none

/-- The loop L93-97. (lib/log/options.go:93-97) -/
def applyOpts (o : Options) : List Opt → Option Options
  | [] => some o
  | p :: ps =>
    match applyOpt o p with
    | some o' => applyOpts o' ps
    | none => none

/-- L68-80: the encoder configuration of `NewOptions`. (lib/log/options.go:68-80) -/
def defaultConf : Conf := ⟨true, false, .short, 0⟩

/-- L62-91, with the encoder configuration at address `a`. Sizes in bytes, times in hours.
(lib/log/options.go:62-91) -/
def defaults (a : Nat) : Options where
  suffix := ""
  maxSize := 1024
  maxAge := 7
  maxBackups := 30
  compress := false
  outStd := false
  encoderConf := some a
  level := 0
  caller := false
  callerFunc := false
  callerSkip := 0
  globPattern := ""
  linkName := ""
  rotationSize := 1073741824
  rotationTime := 1
  logMaxAge := 0
  rotationCount := 0

/-- rotation.go L9-18: the parameters of the rotating file. -/
structure Rotation where
  globPattern : String
  linkName : String
  size : Int
  time : Int
  maxAge : Int
  count : Nat
deriving DecidableEq

/-- The parameters of `NewRotation`. (lib/log/rotation.go:9-18) -/
def rotation (o : Options) : Rotation :=
  ⟨o.globPattern, o.linkName, o.rotationSize, o.rotationTime, o.logMaxAge, o.rotationCount⟩

/-- Where records go. (lib/log/options.go:234-248) -/
inductive Dest
  | std
  | file (r : Rotation)
deriving DecidableEq

/-- `zap.Logger`: where it writes, its level, its copy of the encoder configuration, and whether it adds the caller.
(lib/log/options.go:249-272) -/
structure Logger where
  dests : List Dest
  level : Int
  conf : Conf
  addCaller : Bool
  skip : Nat
deriving DecidableEq

/-- What `NewLogger` returns. (lib/log/options.go:228-273) -/
inductive Result
  | ok (l : Logger)
  | err
  | panic
deriving DecidableEq

/-- L234-248: where to write; `none`: the rotating file cannot be opened. (lib/log/options.go:234-248) -/
def dests (rot : Rotation → Bool) (o : Options) : Option (List Dest) :=
  if o.globPattern ≠ "" then
    if rot (rotation o) then
      if o.outStd then some [.std, .file (rotation o)] else some [.file (rotation o)]
    else none
  else some [.std]

/-- options.go L228-273 `NewLogger`; `a` is the address of the new default configuration. -/
def newLogger (rot : Rotation → Bool) (h : Heap) (a : Nat) (opts : List Opt) : Heap × Result :=
  let h := upd h a defaultConf
  match applyOpts (defaults a) opts with
  | none => (h, .err) -- L230-232
  | some o =>
    match dests rot o with
    | none => (h, .err) -- L240-242
    | some ds =>
      match o.encoderConf with
      | none => (h, .panic) -- L251: nil pointer dereference
      | some c =>
        let conf := h c -- L251: a copy
        if o.caller then
          -- L258-267: changes the original
          (upd h c { h c with encodeCaller := if o.callerFunc then .baseFunc else .base, functionKey := false },
            .ok ⟨ds, o.level, conf, true, o.callerSkip⟩)
        else (h, .ok ⟨ds, o.level, conf, false, 0⟩)

/-- A stack frame. (lib/log/options.go:258-267) -/
structure Frame where
  file : List String
  line : Nat
  fn : String
deriving DecidableEq

/-- The text of a caller: `EntryCaller.TrimmedPath` of zap keeps the last two components, `path.Base` the last.
(lib/log/options.go:258-267) -/
def callerText (e : CallerEnc) (f : Frame) : String :=
  match e with
  | .short => "/".intercalate (f.file.drop (f.file.length - 2)) ++ ":" ++ toString f.line
  | .base => f.file.getLastD "." ++ ":" ++ toString f.line
  | .baseFunc => f.file.getLastD "." ++ ":" ++ toString f.line ++ " " ++ f.fn ++ "()"
  | .other n => "<" ++ toString n ++ ">"

/-- What the logger writes for a record of level `lvl` when the innermost frames are `stack`: the destinations, each with
the text of the caller if there is one. (lib/log/options.go:249-272) -/
def write (l : Logger) (lvl : Int) (stack : List Frame) : List (Dest × Option String) :=
  if l.level ≤ lvl then
    let text := if l.addCaller && l.conf.callerKey then (stack[l.skip]?).map (callerText l.conf.encodeCaller) else none
    l.dests.map (·, text)
  else []

end Braid.Logger
