import Verif.Lib.Lts

/-
Model of the gRPC client: `lib/grpc/client.go` (`Call`, `CallWait`, `getConn`, `newconn`), with its use by
`handleRemoteCall` and `handleRemoteSend` (core/node/system_impl.go:347-361 and 439-445).

Any number of goroutines; each map access, dial, channel operation and invocation is one step. Results of the
network and the end of contexts are chosen by the environment: an action says what happens at a step.

Simplified: addresses are strings "ip:port" (the `Sprintf` is left out); call options are represented by whether
all of them are `grpc.CallOption`; connections are numbers, in the order in which they were opened. A panic inside
`Invoke` is not modelled. `connmap` only holds connections, so the second check of `getConn` (L117-120) does not
fail. The client of a node is built without addresses and without `Init` (system_impl.go:66), so `connmap` starts
empty.
-/
namespace Braid.Grpc

/-- What happened to a call. (lib/grpc/client.go:139-190) -/
inductive Res
  | ok
  /-- L170: the context ended while waiting for a slot -/
  | noSlot
  /-- L175: no connection -/
  | noConn
  /-- L183: invalid option -/
  | badOption
  /-- L139: dialing failed -/
  | noDial
  /-- L157, L190: the invocation failed -/
  | invoke
deriving DecidableEq

/-- `CallWait` or `Call`. (lib/grpc/client.go:130-197) -/
inductive Op
  /-- `Call` (used by Send); `opts`: all options are call options -/
  | call (addr : String) (opts : Bool)
  /-- `CallWait` (used by Call) -/
  | callWait (addr : String)
deriving DecidableEq

/-- lib/grpc/client.go:134-196. -/
inductive Pc
  | idle
  /-- L166 -/
  | cSlot (addr : String) (opts : Bool)
  /-- L173 -/
  | cConn (addr : String) (opts : Bool)
  /-- L178-185 -/
  | cOpts (addr : String) (conn : Nat) (opts : Bool)
  /-- L187-196 -/
  | cInvoke (addr : String) (conn : Nat)
  /-- the deferred L168, before returning -/
  | cFree (r : Res)
  /-- L134 -/
  | wConn (addr : String)
  /-- L137 -/
  | wDial (addr : String)
  /-- L143 -/
  | wStore (addr : String) (conn : Nat)
  /-- L156 -/
  | wInvoke (addr : String) (conn : Nat)
deriving DecidableEq

/-- The connections and the goroutines. (lib/grpc/client.go:31-35) -/
structure State where
  /-- tokens in the channel `workers` -/
  workers : Nat
  connmap : String → Option Nat
  /-- number of connections opened so far -/
  conns : Nat
  pc : Nat → Pc

/-- A client without connections. (lib/grpc/client.go:37-49) -/
def init : State := ⟨0, fun _ => none, 0, fun _ => .idle⟩

/-- What is seen of a run. (lib/grpc/client.go:51-197) -/
inductive Ev
  | begin (g : Nat) (o : Op)
  /-- a slot was acquired -/
  | acquired (g : Nat)
  /-- a slot was given back -/
  | freed (g : Nat)
  /-- a connection was opened -/
  | opened (g : Nat) (addr : String) (conn : Nat)
  /-- the request went out on a connection; `ok`: it was answered -/
  | sent (g : Nat) (addr : String) (conn : Nat) (ok : Bool)
  | finish (g : Nat) (o : Res)
deriving DecidableEq

/-- lib/grpc/client.go:166-166. -/
inductive Act
  | start (g : Nat) (o : Op)
  /-- the next step of `g`; `ok = false`: the dial or invocation fails -/
  | go (g : Nat) (ok : Bool)
  /-- the context of `g` has ended: the select of L166 takes the other case -/
  | ctx (g : Nat)

/-- `max`: MaxConcurrentCalls, the capacity of `workers`. (lib/grpc/client.go:134-196) -/
def step (max : Nat) (s : State) : Act → Option (State × List Ev)
  | .start g o =>
    if s.pc g = .idle then
      match o with
      | .call a b => some ({ s with pc := upd s.pc g (.cSlot a b) }, [.begin g o])
      | .callWait a => some ({ s with pc := upd s.pc g (.wConn a) }, [.begin g o])
    else none
  | .ctx g =>
    match s.pc g with
    | .cSlot _ _ => some ({ s with pc := upd s.pc g .idle }, [.finish g .noSlot]) -- L169-170
    | _ => none
  | .go g ok =>
    match s.pc g with
    | .idle => none
    | .cSlot a b => -- L167
      if s.workers < max then
        some ({ s with workers := s.workers + 1, pc := upd s.pc g (.cConn a b) }, [.acquired g])
      else none
    | .cConn a b => -- L173-176
      match s.connmap a with
      | some c => some ({ s with pc := upd s.pc g (.cOpts a c b) }, [])
      | none => some ({ s with pc := upd s.pc g (.cFree .noConn) }, [])
    | .cOpts a c b => -- L178-185
      if b then some ({ s with pc := upd s.pc g (.cInvoke a c) }, [])
      else some ({ s with pc := upd s.pc g (.cFree .badOption) }, [])
    | .cInvoke a c => -- L187-196
      some ({ s with pc := upd s.pc g (.cFree (if ok then .ok else .invoke)) }, [.sent g a c ok])
    | .cFree r => -- L168
      if 0 < s.workers then
        some ({ s with workers := s.workers - 1, pc := upd s.pc g .idle }, [.freed g, .finish g r])
      else none
    | .wConn a => -- L134
      match s.connmap a with
      | some c => some ({ s with pc := upd s.pc g (.wInvoke a c) }, [])
      | none => some ({ s with pc := upd s.pc g (.wDial a) }, [])
    | .wDial a => -- L137-141
      if ok then some ({ s with conns := s.conns + 1, pc := upd s.pc g (.wStore a s.conns) }, [.opened g a s.conns])
      else some ({ s with pc := upd s.pc g .idle }, [.finish g .noDial])
    | .wStore a c => -- L143
      some ({ s with connmap := upd s.connmap a (some c), pc := upd s.pc g (.wInvoke a c) }, [])
    | .wInvoke a c => -- L156-161
      some ({ s with pc := upd s.pc g .idle }, [.sent g a c ok, .finish g (if ok then .ok else .invoke)])

/-- The system. (lib/grpc/client.go:51-197) -/
def sys (max : Nat) : Lts State Act Ev := ⟨init, step max⟩

end Braid.Grpc
