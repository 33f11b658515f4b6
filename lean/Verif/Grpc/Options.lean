import Verif.Lib.Lts

/-
Model of what `Client.Call` and `Client.CallWait` do with the options of a call (lib/grpc/client.go:146-156, 178-195).

Simplifications: a connection is there and the slot was got (`Verif/Grpc/Model.lean` has these). `conn.Invoke` of
google.golang.org/grpc calls the method `before` of each option it is given, in order, before anything is sent; a call of a method of a
nil interface panics in Go.
-/
namespace Braid.Grpc

/-- What is given as `opts ...interface{}`: a value that is a `grpc.CallOption`, or one of another type. (lib/grpc/client.go:130, 164) -/
inductive Arg
  | opt (n : Nat)
  | other (ty : String)
deriving DecidableEq

/-- What becomes of the call. (lib/grpc/client.go:130-196) -/
inductive Passed
  /-- the request is sent with these options -/
  | invoked (opts : List Nat)
  /-- L183: "invalid call option type" -/
  | refused (ty : String)
  | panicked
deriving DecidableEq

/-- L178-185: the loop of `Call`. (lib/grpc/client.go:178-185) -/
def callLoop : List Nat → List Arg → Except String (List Nat)
  | acc, [] => .ok acc
  | acc, .opt n :: as => callLoop (acc ++ [n]) as
  | _, .other ty :: _ => .error ty

/-- L178-189: `Call`. (lib/grpc/client.go:178-189) -/
def callOpts (as : List Arg) : Passed :=
  match callLoop [] as with
  | .ok os => .invoked os
  | .error ty => .refused ty

/-- L146-154: the loop of `CallWait`; `callopt` is nil after a failed type assertion, and is appended all the same.
(lib/grpc/client.go:146-154) -/
def waitLoop : List (Option Nat) → List Arg → List (Option Nat)
  | acc, [] => acc
  | acc, .opt n :: as => waitLoop (acc ++ [some n]) as
  | acc, .other _ :: as => waitLoop (acc ++ [none]) as

/-- `conn.Invoke` with the options. (lib/grpc/client.go:156) -/
def invoke : List Nat → List (Option Nat) → Passed
  | acc, [] => .invoked acc
  | acc, some n :: os => invoke (acc ++ [n]) os
  | _, none :: _ => .panicked

/-- L146-156: `CallWait`. (lib/grpc/client.go:146-156) -/
def waitOpts (as : List Arg) : Passed := invoke [] (waitLoop [] as)

end Braid.Grpc
