/-
Model of `lib/log/options.go` `funcShortName` and `lib/errcode/errcode.go` `shortFile`, on lists of bytes.
-/
namespace Braid.Names

/-- File and function names. (lib/log/options.go:279-287, lib/errcode/errcode.go:113-122) -/
abbrev Bytes := List UInt8

/-- `.` and `/` (lib/log/options.go:279-287) -/
def dot : UInt8 := 46
/-- '/'. (lib/errcode/errcode.go:113-122) -/
def slash : UInt8 := 47

/-- `options.go` L280-284: the loop, before the index `i`. `i + 1` here is the loop variable `i`.
(lib/log/options.go:280-284) -/
def funcLoop (name : Bytes) : Nat → Bytes
  | 0 => name
  | i + 1 =>
    if name[i]? = some slash then name
    else if name[i]? = some dot then name.drop (i + 1)
    else funcLoop name i

/-- `options.go` L279-287. (lib/log/options.go:279-287) -/
def funcShortName (name : Bytes) : Bytes := funcLoop name name.length

/-- `errcode.go` L115-120: the loop, which ends before the index 0. (lib/errcode/errcode.go:115-120) -/
def fileLoop (file : Bytes) : Nat → Bytes
  | 0 => file
  | 1 => file
  | i + 2 => if file[i + 1]? = some slash then file.drop (i + 2) else fileLoop file (i + 1)

/-- `errcode.go` L113-122. (lib/errcode/errcode.go:113-122) -/
def shortFile (file : Bytes) : Bytes := fileLoop file file.length

end Braid.Names
