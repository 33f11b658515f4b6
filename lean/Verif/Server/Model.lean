import Verif.Lib.Lts

/-
Model of the gRPC server: `lib/grpc/server.go`, `lib/grpc/server_opt.go`, and `NewAcceptor`
(core/node/system_acceptor.go:58-87), on top of google.golang.org/grpc and grpc_middleware.

Simplifications: an interceptor is its number and what it does; the result of a call is success, an error or a panic.
A call is unary or a stream. Handlers to register are numbers.
-/
namespace Braid.Server

/-! ### Options and interceptors -/

/-- What an interceptor does: it calls the next one, or rejects the call, or panics, or it is that of `grpc_recovery`,
which calls the next one and turns a panic into an error. (core/node/system_acceptor.go:48-79) -/
inductive Kind
  | pass
  | reject
  | boom
  | recovery
deriving DecidableEq

/-- An interceptor. (lib/grpc/server_opt.go:35-45) -/
structure Icpt where
  id : Nat
  kind : Kind
deriving DecidableEq

/-- server_opt.go:8-17 `ServerParm`. -/
structure Parm where
  listen : String
  unary : List Icpt
  stream : List Icpt
  handler : Option Nat
  graceful : Bool
deriving DecidableEq

/-- server_opt.go:22-51. -/
inductive Opt
  | listen (a : String)
  | graceful
  | unary (l : List Icpt)
  | stream (i : Icpt)
  /-- nil or a handler -/
  | handler (h : Option Nat)
deriving DecidableEq

/-- One option. (lib/grpc/server_opt.go:23-51) -/
def applyOpt (p : Parm) : Opt → Parm
  | .listen a => { p with listen := a }
  | .graceful => { p with graceful := true }
  | .unary l => { p with unary := p.unary ++ l }
  | .stream i => { p with stream := p.stream ++ [i] }
  | .handler h => { p with handler := h }

/-- The outcome of a call. (lib/grpc/server.go:26-57) -/
inductive Res
  | ok
  | err
  | panic
deriving DecidableEq

/-- What is seen of a call. (lib/grpc/server.go:26-57) -/
inductive Ev
  | enter (i : Nat)
  | exit (i : Nat)
  | handler
deriving DecidableEq

/-- What happens in a call. (lib/grpc/server.go:26-57) -/
abbrev Trace := List Ev × Res

/-- One interceptor around the next handler. (lib/grpc/server.go:40-49) -/
def call (i : Icpt) (next : Trace) : Trace :=
  match i.kind with
  | .pass => ([.enter i.id] ++ next.1 ++ (if next.2 = .panic then [] else [.exit i.id]), next.2)
  | .reject => ([.enter i.id, .exit i.id], .err)
  | .boom => ([.enter i.id], .panic)
  | .recovery => ([.enter i.id] ++ next.1 ++ [.exit i.id], if next.2 = .panic then .err else next.2)

/-- `grpc_middleware.ChainUnaryServer`: from the last to the first. (lib/grpc/server.go:40-49) -/
def chainLoop (is : List Icpt) : Nat → Trace → Trace
  | 0, t => t
  | n + 1, t => chainLoop is n (match is[n]? with | some i => call i t | none => t)

/-- A server: what was given to `grpc.NewServer`. (lib/grpc/server.go:19-24) -/
structure Server where
  parm : Parm
  /-- the interceptor of unary calls -/
  unary : Option (List Icpt)
  /-- the interceptor of streams -/
  stream : Option (List Icpt)
deriving DecidableEq

/-- server.go:26-57 `BuildServerWithOption`; `none`: panic. -/
def build (opts : List Opt) : Option Server :=
  let p := opts.foldl applyOpt ⟨":14222", [], [], none, false⟩
  let s : Server := if p.unary.length ≠ 0 then ⟨p, some p.unary, none⟩ else ⟨p, none, none⟩
  if p.handler = none then none else some s

/-- A unary call, whose handler ends with `r`. (lib/grpc/server.go:26-57) -/
def unaryCall (s : Server) (r : Res) : Trace :=
  match s.unary with
  | some is => chainLoop is is.length ([.handler], r)
  | none => ([.handler], r)

/-- A stream. (lib/grpc/server.go:26-57) -/
def streamCall (s : Server) (r : Res) : Trace :=
  match s.stream with
  | some is => chainLoop is is.length ([.handler], r)
  | none => ([.handler], r)

/-- core/node/system_acceptor.go:58-79: the options of `NewAcceptor`; `port` is ":" and the number, `tracing`: there is a
tracer. Interceptor 0 is that of `grpc_recovery`, 1 that of `lib/span`. -/
def acceptorOpts (port : String) (tracing : Bool) (h : Nat) : List Opt :=
  [.listen port, .graceful, .handler (some h),
   .unary ([⟨0, .recovery⟩] ++ if tracing then [⟨1, .pass⟩] else [])]

/-! ### Init, Run and Close -/

/-- The goroutine of `Run` (server.go:83-89). -/
inductive GPc
  | off
  /-- about to call `Serve` with the listener, which may be nil -/
  | start (l : Option Nat)
  | serving (l : Nat)
  | ended
deriving DecidableEq

/-- The server and its goroutine. (lib/grpc/server.go:19-24) -/
structure State where
  /-- listeners made so far -/
  n : Nat
  /-- which of them are open -/
  isOpen : Nat → Bool
  /-- `s.listen` -/
  cur : Option Nat
  /-- goroutines started so far -/
  gs : Nat
  g : Nat → GPc
  /-- a goroutine has called `Serve` -/
  served : Bool
  /-- `Stop` or `GracefulStop` was called -/
  stopped : Bool
  /-- running calls -/
  active : Nat
  /-- who is inside `Close` -/
  closing : Nat → Bool
  crashed : Bool

/-- What is seen of a run. (lib/grpc/server.go:59-104) -/
inductive LEv
  | initOk (l : Nat)
  | initErr
  /-- `Run` starts goroutine `k` with listener `l` -/
  | ran (k : Nat) (l : Option Nat)
  | crash
  | callStart
  | callEnd
  | closeCall (c : Nat)
  | closeRet (c : Nat)
deriving DecidableEq

/-- Who takes the next step. (lib/grpc/server.go:59-104) -/
inductive Act
  /-- `Init`; `ok`: the address can be listened on -/
  | init (ok : Bool)
  | run
  | g (k : Nat)
  /-- a call comes in through the listener of goroutine `k` -/
  | callStart (k : Nat)
  | callEnd
  | close (c : Nat)
  | closeRet (c : Nat)
deriving DecidableEq

/-- A new server. (lib/grpc/server.go:26-57) -/
def init : State where
  n := 0
  isOpen := fun _ => false
  cur := none
  gs := 0
  g := fun _ => .off
  served := false
  stopped := false
  active := 0
  closing := fun _ => false
  crashed := false

/-- The server; `graceful`: the option `GracefulStop`. (lib/grpc/server.go:86-101) -/
def step (graceful : Bool) (s : State) (a : Act) : Option (State × List LEv) :=
  if s.crashed then none else
  match a with
  | .init ok => -- server.go:59-70
    if ok then some ({ s with n := s.n + 1, isOpen := upd s.isOpen s.n true, cur := some s.n }, [.initOk s.n])
    else some (s, [.initErr])
  | .run => -- server.go:78-91; grpc ends the process if a service is registered twice or after `Serve`
    if s.gs ≠ 0 ∨ s.served then some ({ s with crashed := true }, [.crash])
    else some ({ s with gs := s.gs + 1, g := upd s.g s.gs (.start s.cur) }, [.ran s.gs s.cur])
  | .g k => -- L86: `Serve` of grpc
    match s.g k with
    | .start none => some ({ s with crashed := true }, [.crash]) -- nil pointer dereference
    | .start (some l) =>
      if s.stopped then some ({ s with g := upd s.g k .ended, isOpen := upd s.isOpen l false, served := true }, [])
      else some ({ s with g := upd s.g k (.serving l), served := true }, [])
    | .serving _ => if s.stopped then some ({ s with g := upd s.g k .ended }, []) else none
    | _ => none
  | .callStart k =>
    match s.g k with
    | .serving l => if s.isOpen l ∧ ¬ s.stopped then some ({ s with active := s.active + 1 }, [.callStart]) else none
    | _ => none
  | .callEnd => if 0 < s.active then some ({ s with active := s.active - 1 }, [.callEnd]) else none
  | .close c => -- L97-101: grpc closes the listeners that are served (there is only one goroutine, number 0)
    if s.closing c then none
    else some ({ s with
      closing := upd s.closing c true
      stopped := true
      isOpen := fun l => s.isOpen l && !(s.g 0 = .serving l) }, [.closeCall c])
  | .closeRet c => -- L98: waits for the running calls; L100 does not
    if s.closing c then
      if graceful ∧ s.active ≠ 0 then none
      else some ({ s with closing := upd s.closing c false }, [.closeRet c])
    else none

/-- The system. (lib/grpc/server.go:59-104) -/
def sys (graceful : Bool) : Lts State Act LEv := ⟨init, step graceful⟩

end Braid.Server
