/-
Model of error codes: `lib/errcode/errcode.go`, with `errors.Cause` of github.com/pkg/errors.

A `Code` is its number and message; the detail, which holds the place of creation, is not looked at by any of these
functions and is left out. Other implementations of the interface `Codes` are left out. `none` is nil.
-/
namespace Braid.Errcode

/-- errcode.go:44-48 -/
structure Code where
  code : Int
  msg : String
deriving DecidableEq

/-- An error: a code, a wrapper that has the method `Cause` (github.com/pkg/errors) with its own text, or any other
error, by its text. A wrapper made with `%w` has no method `Cause` and is one of the others.
(lib/errcode/errcode.go:28-48, 81-90) -/
inductive Err
  | code (c : Code)
  | wrap (inner : Err) (text : String)
  | other (text : String)
deriving DecidableEq

/-- errcode.go:11 -/
def OK : Code := ⟨0, ""⟩

/-- errcode.go:12 -/
def unknow : Code := ⟨-1, " 未知错误"⟩

/-- errcode.go:16-21 `New`; `none`: panic -/
def new (e : Int) (msg : String) : Option Code := if e ≤ 0 then none else some ⟨e, msg⟩

/-- `Error()`; errcode.go:50-52 for codes -/
def Err.text : Err → String
  | .code c => c.msg
  | .wrap i t => t ++ ": " ++ i.text
  | .other t => t

/-- `errors.Cause`: follows the methods `Cause` to the end. (lib/errcode/errcode.go:81-90) -/
def Err.root : Err → Err
  | .wrap i _ => i.root
  | e => e

/-- errcode.go:72-78 `String` -/
def ofString (s : String) : Code := if s = "" then OK else ⟨-1, s⟩

/-- errcode.go:81-90 `Cause` -/
def cause : Option Err → Code
  | none => OK
  | some e => match e.root with
    | .code c => c
    | _ => ofString e.text

/-- errcode.go:93-101 `Equal` -/
def equal (a b : Option Code) : Bool :=
  let a := a.getD OK
  let b := b.getD OK
  a.code == b.code

/-- errcode.go:104-106 `EqualError`; a nil code panics (L105), which is left out. -/
def equalError (c : Code) (e : Option Err) : Bool := (cause e).code == c.code

/-- errcode.go:69 `Code.Equal` -/
def Code.equal (c : Code) (e : Option Err) : Bool := equalError c e

end Braid.Errcode
