import Verif.Lib.Lts

/-
Model of the options of a node (core/node.go), of `BuildProcessWithOption`, `Get` and `Init`
(core/node/node_process_impl.go:17-57) with `buildSystemWithOption` (core/node/system_impl.go:46-89), and of the options of
a gRPC client (lib/grpc/client_opt.go) with `BuildClientWithOption`, `newconn` and `Init` (lib/grpc/client.go:36-108).

Simplifications: loaders, factories, tracers, interceptors, dial options and connections are numbers. Whether a tracer has
a tracing (`GetTracing() != nil`), whether a port can be listened on and whether an address can be dialled is told by the
environment.
-/
namespace Braid.NodeOpts

/-! ### Nodes -/

/-- core/node.go:19-30 `NodeParm`. -/
structure Parm where
  id : String
  weight : Int
  ip : String
  port : Int
  tracer : Option Nat
  loader : Option Nat
  factory : Option Nat
deriving DecidableEq

/-- core/node.go:32-82; `none`: nil. -/
inductive Opt
  | serviceInfo (ip : String) (port : Int)
  | id (s : String)
  | weight (n : Int)
  | loader (l : Option Nat)
  | factory (f : Option Nat)
  | ip (s : String)
  | port (n : Int)
  | tracer (t : Option Nat)
deriving DecidableEq

/-- core/node.go:35-82. -/
def apply (p : Parm) : Opt → Parm
  | .serviceInfo ip port => { p with ip := ip, port := port } -- L36-39
  | .id s => { p with id := s } -- L43-45
  | .weight n => { p with weight := n } -- L49-51
  | .loader l => { p with loader := l } -- L55-57
  | .factory f => { p with factory := f } -- L61-63
  | .ip s => { p with ip := s } -- L67-69
  | .port n => { p with port := n } -- L73-75
  | .tracer t => { p with tracer := t } -- L79-81

/-- core/node/node_process_impl.go:24-30: the defaults and the loop over the options. -/
def parmOf (opts : List Opt) : Parm := opts.foldl apply ⟨"", 0, "127.0.0.1", 0, none, none, none⟩

/-- What a node consists of: `NormalSystem` (core/node/system_impl.go:24-42). -/
structure System where
  nodeID : String
  nodeIP : String
  nodePort : Int
  tracer : Option Nat
  /-- L64: the tracer of the interceptor of the client -/
  clientTrace : Option Nat
  loader : Nat
  factory : Nat
  /-- L72-76: what the address book writes for the actors of this node -/
  book : String × String × Int
  /-- L78-86: the port the acceptor listens on, and the tracer of its interceptor (system_acceptor.go:65-68) -/
  acceptor : Option (Int × Option Nat)
deriving DecidableEq

/-- What the environment says. (core/node/system_impl.go:63, lib/grpc/server.go:66) -/
structure Env where
  /-- `GetTracing() != nil` -/
  hasTracing : Nat → Bool
  /-- the port can be listened on -/
  canListen : Int → Bool

/-- core/node/system_impl.go:46-89 `buildSystemWithOption`; `none`: it panics. -/
def buildSystem (env : Env) (p : Parm) : Option System :=
  match p.loader, p.factory with -- L58-60
  | some l, some f =>
    let tr := p.tracer.filter env.hasTracing -- L63-65
    let sys : System := ⟨p.id, p.ip, p.port, p.tracer, tr, l, f, (p.id, p.ip, p.port), none⟩
    if p.port ≠ 0 then -- L78
      if env.canListen p.port then some { sys with acceptor := some (p.port, tr) } else none -- L79-82
    else some sys
  | _, _ => none

/-- core/node/node_process_impl.go:15-18 `process`. -/
structure Process where
  p : Parm
  sys : System
deriving DecidableEq

/-- core/node/node_process_impl.go:22-38 `BuildProcessWithOption`; `none`: it panics. -/
def build (env : Env) (opts : List Opt) : Option Process := (buildSystem env (parmOf opts)).map fun s => ⟨parmOf opts, s⟩

/-- The variable `pcs` (L20) after a call of `BuildProcessWithOption`: L32 is not reached if L33 panics.
(core/node/node_process_impl.go:20-38) -/
def setPcs (pcs : Option Process) (r : Option Process) : Option Process :=
  match r with
  | some x => some x
  | none => pcs

/-- An interface value: nil, or a pointer, which may itself be nil. (core/node/node_process_impl.go:40-42) -/
inductive Iface
  | nil
  | ptr (p : Option Process)
deriving DecidableEq

/-- core/node/node_process_impl.go:40-42 `Get`: converts the pointer to the interface. -/
def get (pcs : Option Process) : Iface := .ptr pcs

/-- core/node/node_process_impl.go:44-46 `ID`; `none`: it panics. -/
def idOf : Iface → Option String
  | .ptr (some x) => some x.p.id
  | _ => none

/-- core/node/node_process_impl.go:52-57 `Init`: what the loader is given, the process itself. -/
def initNode (x : Process) (_opts : List Opt) : Option (Nat × Process) := x.p.loader.map fun l => (l, x)

/-! ### Clients -/

/-- A `grpc.DialOption`: the credentials, an interceptor made of a chain, or one of the user's.
(lib/grpc/client.go:58-64) -/
inductive Dial
  | insecure
  | unary (chain : List Nat)
  | other (n : Nat)
deriving DecidableEq

/-- lib/grpc/client_opt.go:10-24 `ClientParm`; times in nanoseconds. -/
structure CParm where
  poolInit : Int
  poolCap : Int
  poolIdle : Int
  maxCalls : Int
  callTimeout : Int
  addrs : List String
  dial : List Dial
  unary : List Nat
  stream : List Nat
deriving DecidableEq

/-- lib/grpc/client_opt.go:40-95. -/
inductive COpt
  | poolInit (n : Int)
  | poolCap (n : Int)
  | poolIdle (sec : Int)
  | conns (l : List String)
  | maxCalls (n : Int)
  | callTimeout (d : Int)
  | dial (l : List Dial)
  | unary (l : List Nat)
  | stream (i : Nat)
deriving DecidableEq

/-- lib/grpc/client_opt.go:40-95. -/
def applyC (p : CParm) : COpt → CParm
  | .poolInit n => { p with poolInit := n }
  | .poolCap n => { p with poolCap := n }
  | .poolIdle s => { p with poolIdle := s * 1000000000 }
  | .conns l => { p with addrs := p.addrs ++ l }
  | .maxCalls n => { p with maxCalls := n }
  | .callTimeout d => { p with callTimeout := d }
  | .dial l => { p with dial := p.dial ++ l }
  | .unary l => { p with unary := p.unary ++ l }
  | .stream i => { p with stream := p.stream ++ [i] }

/-- lib/grpc/client_opt.go:27-33 `DefaultClientParm`. -/
def defaultC : CParm := ⟨8, 64, 100000000000, 1024, 10000000000, [], [], [], []⟩

/-- lib/grpc/client.go:31-35 `Client`, with the capacity of `workers`. -/
structure Client where
  parm : CParm
  workers : Nat
deriving DecidableEq

/-- lib/grpc/client.go:37-49 `BuildClientWithOption`; `none`: `make` panics on a negative size (L47). -/
def buildClient (opts : List COpt) : Option Client :=
  let p := opts.foldl applyC defaultC
  if p.maxCalls < 0 then none else some ⟨p, p.maxCalls.toNat⟩

/-- lib/grpc/client.go:58-64: the options every connection is dialled with. -/
def dialOpts (c : Client) : List Dial :=
  [.insecure] ++ (if 0 < c.parm.unary.length then [.unary c.parm.unary] else []) ++ c.parm.dial

/-- The connections of a client: how many were opened so far, and `connmap`. (lib/grpc/client.go:31-35) -/
structure Conns where
  opened : Nat
  map : String → Option Nat

/-- lib/grpc/client.go:97-108 `Init`: the loop over the addresses; `ok i a`: the `i`-th dial, to `a`, succeeds. -/
def initLoop (ok : Nat → String → Bool) : Nat → List String → Conns → Conns
  | _, [], s => s
  | i, a :: as, s =>
    if ok i a then initLoop ok (i + 1) as ⟨s.opened + 1, upd s.map a (some s.opened)⟩ -- L104
    else initLoop ok (i + 1) as s -- L102

/-- lib/grpc/client.go:97-108 `Init`; the flag: it returns nil. -/
def initClient (c : Client) (ok : Nat → String → Bool) : Conns × Bool :=
  (initLoop ok 0 c.parm.addrs ⟨0, fun _ => none⟩, true) -- L107

end Braid.NodeOpts
