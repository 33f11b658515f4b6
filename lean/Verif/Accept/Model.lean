import Verif.Payload.Model

/-
Model of what the acceptor of a node does with the bytes of a request: `_Acceptor_Routing_Handler`
(router/router.pb.go:369-385), `listen.Routing`, `recoverHandler` and `stack` (core/node/system_acceptor.go:33-56, 94-114),
with `grpc_recovery` around `Routing` and the codec of gRPC around both.

The codec calls `Unmarshal` before the interceptors run (router.pb.go:371) and `Marshal` after them, so a panic in one of these
ends the process. A handler may still be running when `Call` returns (it gave up waiting, `Verif/CallTree`), and write to the
response while it is encoded: the response is read once for its size and once for its content, and may be another one the
second time. (That it changes while it is being read a single time is left out.)
-/
namespace Braid.Accept

open Wire Payload

/-- What `runtime.Stack(buf, false)` writes: as much of the trace as fits in a buffer of this length.
(core/node/system_acceptor.go:40) -/
def runtimeStack (trace : Bytes) (len : Nat) : Nat := min trace.length len

/-- system_acceptor.go:39-45: the loop of `stack` with a buffer of this length: the bytes returned, and the length of the buffer
then. The trace is taken to be the same each time. -/
def stackLoop (trace : Bytes) (len : Nat) (h : 0 < len) : Bytes × Nat :=
  if runtimeStack trace len < len then (trace.take (runtimeStack trace len), len) else stackLoop trace (2 * len) (by omega)
termination_by trace.length + 1 - len
decreasing_by unfold runtimeStack at *; omega

/-- system_acceptor.go:37-46 `stack`. -/
def stack (trace : Bytes) : Bytes × Nat := stackLoop trace 1024 (by decide)

/-- A value given to `panic`: an error, by its text, or another value, as printed by `%v`.
(core/node/system_acceptor.go:49-52) -/
inductive Thrown
  | error (text : Bytes)
  | value (text : Bytes)
deriving DecidableEq

/-- system_acceptor.go:48-56 `recoverHandler`: the text of the error. -/
def recoverHandler (r : Thrown) (trace : Bytes) : Bytes :=
  let err := match r with
    | .error t => t
    | .value t => t
  let buf := (stack trace).1
  enc "[GRPC-SERVER RECOVER] err: " ++ err ++ enc " stack: " ++ buf

/-- How `Call` ends. (core/node/system_acceptor.go:103-110) -/
inductive End
  | ret (failed : Bool)
  | panic (r : Thrown)
deriving DecidableEq

/-- What the sender gets. (core/node/system_acceptor.go:94-114, router/router.pb.go:369-385) -/
inductive Reply
  /-- the bytes of the response -/
  | answer (b : Bytes)
  /-- an error of the codec -/
  | codec
  /-- the error of `recoverHandler` -/
  | recovered (text : Bytes)
deriving DecidableEq

/-- What happens with a request: the wrappers with which `Call` is called, and the reply; `none`: the process ends.
(core/node/system_acceptor.go:94-114) -/
structure Served where
  calls : List Wrapper
  reply : Option Reply
deriving DecidableEq

/-- What `Call` does with a wrapper: how it ends, and the response that is in the wrapper when its size is taken and when it is
written. (core/node/system_acceptor.go:103-112) -/
structure Behaviour where
  ends : Wrapper → End
  sized : Wrapper → Option Message
  written : Wrapper → Option Message

/-- `RouteRes.Marshal` (router/router.pb.go:568-576) of a response that is `sized` when the buffer is made and `written` when it
is filled; `none`: panic. -/
def encode (sized written : Option Message) : Option Bytes :=
  match marshalWith (sizeRoute sized) (marshalRouteTo 0x12 written) with
  | .ok b => some b
  | _ => none

/-- The panic of `routermsg.Req.Header.PrevActorType = …` for a request without message or header (L101).
(core/node/system_acceptor.go:100-101) -/
def nilPanic : Thrown := .error (enc "runtime error: invalid memory address or nil pointer dereference")

/-- system_acceptor.go:94-114 `Routing` within the interceptor and the codec; `uid` is the new uuid of the response, `trace` the
stack of the goroutine. -/
def serve (call : Behaviour) (uid trace b : Bytes) : Served :=
  match unmarshalRouteReq {} b with -- router.pb.go:371
  | .ok rq =>
    match accept uid rq with -- L97-101
    | none => ⟨[], some (.recovered (recoverHandler nilPanic trace))⟩
    | some w =>
      match call.ends w with -- L103-106
      | .ret _ => ⟨[w], (encode (call.sized w) (call.written w)).map .answer⟩ -- L108-113
      | .panic r => ⟨[w], some (.recovered (recoverHandler r trace))⟩
  | .err _ => ⟨[], some .codec⟩
  | _ => ⟨[], none⟩

end Braid.Accept
