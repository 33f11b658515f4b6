import Verif.System.Model
import Verif.Wire.Model

/-
Model of what a call carries: the wrapper of `NormalSystem.Call` (core/node/system_impl.go:197-275), its way over the
wire to the acceptor of another node (`handleRemoteCall`, L347-361; `listen.Routing`,
core/node/system_acceptor.go:94-114) and back.

Where a call goes is decided by `System.route` (`Verif/System`); the bytes are those of `Verif/Wire`.
Simplifications: what the actor does with a wrapper until `localCall` returns is given by a function (`Verif/CallTree`
has the waiting); handlers that go on after a timeout do not write while the answer is encoded. The context and the
tracing are left out (`Verif/Context`, `Verif/Span`). Go strings are bytes; the names of actors, types and events are
valid UTF-8 here.
-/
namespace Braid.Payload
open AddressBook Braid.System

/-- The bytes of a Go string. (router/router.pb.go:29-40) -/
def enc (s : String) : Wire.Bytes := s.toByteArray.data.toList

/-- router/msg/msg.go:20-28 `type Wrapper struct`; a nil message is `none`, `err` is `Err != nil`. -/
structure Wrapper where
  req : Option Wire.Message
  res : Option Wire.Message
  err : Bool
deriving DecidableEq

/-- router/msg/msg.go:31-38, 47-69: a message as `NewBuilder` makes it, with this uuid. -/
def newMessage (uid : Wire.Bytes) : Wire.Message := { header := some { id := uid } }

/-- core/node/system_impl.go:199-201: the three assignments; `none` is the panic of a nil request or header. -/
def setTarget (target ty ev : String) (w : Wrapper) : Option Wrapper :=
  match w.req with
  | some { header := some h, body := b } =>
    some { w with req := some { header := some { h with event := enc ev, targetActorID := enc target,
                                                        targetActorType := enc ty }, body := b } }
  | _ => none

/-- core/node/system_acceptor.go:99-101: the wrapper of the acceptor for a request; `none` is the panic of a request
without message or header. -/
def accept (uid : Wire.Bytes) (rq : Wire.RouteReq) : Option Wrapper :=
  match rq.msg with
  | some { header := some h, body := b } =>
    some ⟨some { header := some { h with prevActorType := enc "GrpcAcceptor" }, body := b },
      some (newMessage uid), false⟩
  | _ => none

/-- core/node/system_acceptor.go:103-106: target, type and event are those of the header. -/
def Asks (w : Wrapper) (target ty ev : String) : Prop :=
  ∃ h b, w.req = some { header := some h, body := b } ∧ h.targetActorID = enc target ∧
    h.targetActorType = enc ty ∧ h.event = enc ev

/-- The request of `handleRemoteCall` on the way: encoded at one end (router/router.pb.go:533-541), decoded at the
other (L1190-1275). A slice has fewer than 2^63 bytes; smaller limits of gRPC are `Calls.lost` and `Calls.cut`.
(core/node/system_impl.go:349-353) -/
def sendReq (w : Wrapper) : Option Wire.RouteReq :=
  match Wire.marshalRouteReq ⟨w.req⟩ with
  | .ok b =>
    if b.length < 2 ^ 63 then
      match Wire.unmarshalRouteReq {} b with
      | .ok rq => some rq
      | _ => none
    else none
  | _ => none

/-- The answer of `Routing` on the way: encoded (router/router.pb.go:568-576), decoded (L1276-1361).
(core/node/system_acceptor.go:112-113) -/
def sendRes (w : Wrapper) : Option Wire.RouteRes :=
  match Wire.marshalRouteRes ⟨w.res⟩ with
  | .ok b =>
    if b.length < 2 ^ 63 then
      match Wire.unmarshalRouteRes {} b with
      | .ok rs => some rs
      | _ => none
    else none
  | _ => none

/-- What an actor does with a wrapper until `localCall` returns: what it leaves in the wrapper, and what `localCall`
returns. (core/node/system_impl.go:293-345) -/
abbrev Behaviour := Nat → String → Wrapper → Wrapper × Ret

/-- A wrapper handed to an actor. (core/node/system_impl.go:234, 243, 252) -/
structure Delivery where
  node : Nat
  id : String
  /-- the wrapper as the actor gets it -/
  got : Wrapper
  /-- remote hops before -/
  hops : Nat
deriving DecidableEq

/-- One more hop. (core/node/system_impl.go:274) -/
def Delivery.far (d : Delivery) : Delivery := { d with hops := d.hops + 1 }

/-- `Calls C W act target ty ev n w d r w'`: `Call(target, ty, ev, w)` on node `n` hands the message to `d` (if to
anybody), returns `r`, and leaves `w'` in the caller's wrapper. (core/node/system_impl.go:197-275, 347-361,
core/node/system_acceptor.go:94-114) -/
inductive Calls (C : Cluster) (W : World) (act : Behaviour) :
    String → String → String → Nat → Wrapper → Option Delivery → Ret → Wrapper → Prop
  /-- L199: no request, or one without header -/
  | bad {target ty ev n w} : setTarget target ty ev w = none → Calls C W act target ty ev n w none .panic w
  /-- L234, L243, L252 -/
  | here {target ty ev n w w1 or id} : setTarget target ty ev w = some w1 → or.Valid C W n ty →
      route C W n target ty or = .here id →
      Calls C W act target ty ev n w (some ⟨n, id, w1, 0⟩) (act n id w1).2 (act n id w1).1
  /-- L223, L239, L261, L270 -/
  | fail {target ty ev n w w1 or} : setTarget target ty ev w = some w1 → or.Valid C W n ty →
      (route C W n target ty or).outcome n = some (.failed n) → Calls C W act target ty ev n w none .error w1
  /-- L265 -/
  | crash {target ty ev n w w1 or} : setTarget target ty ev w = some w1 → or.Valid C W n ty →
      route C W n target ty or = .crash → Calls C W act target ty ev n w none .panic w1
  /-- L355-357: the request does not arrive -/
  | lost {target ty ev n w w1 or a} : setTarget target ty ev w = some w1 → or.Valid C W n ty →
      route C W n target ty or = .forward a → Calls C W act target ty ev n w none .error w1
  /-- L355-357: the answer does not arrive -/
  | cut {target ty ev n w w1 or a m uid rq w2 target' ty' ev' d r w3} : setTarget target ty ev w = some w1 →
      or.Valid C W n ty → route C W n target ty or = .forward a → C.listen a.ip a.port = some m →
      sendReq w1 = some rq → accept uid rq = some w2 → Asks w2 target' ty' ev' →
      Calls C W act target' ty' ev' m w2 d r w3 →
      Calls C W act target ty ev n w (d.map Delivery.far) .error w1
  /-- the acceptor panics: an error of the call (system_acceptor.go:48-56, 63, 101) -/
  | refuse {target ty ev n w w1 or a m uid rq} : setTarget target ty ev w = some w1 →
      or.Valid C W n ty → route C W n target ty or = .forward a → C.listen a.ip a.port = some m →
      sendReq w1 = some rq → accept uid rq = none → Calls C W act target ty ev n w none .error w1
  /-- `Call` at the other node panics: an error of the call -/
  | panic {target ty ev n w w1 or a m uid rq w2 target' ty' ev' d w3} : setTarget target ty ev w = some w1 →
      or.Valid C W n ty → route C W n target ty or = .forward a → C.listen a.ip a.port = some m →
      sendReq w1 = some rq → accept uid rq = some w2 → Asks w2 target' ty' ev' →
      Calls C W act target' ty' ev' m w2 d .panic w3 →
      Calls C W act target ty ev n w (d.map Delivery.far) .error w1
  /-- L359-360: the answer arrives; an error of `Call` at the other node is dropped (system_acceptor.go:108-113) -/
  | answer {target ty ev n w w1 or a m uid rq w2 target' ty' ev' d r w3 rs} : setTarget target ty ev w = some w1 →
      or.Valid C W n ty → route C W n target ty or = .forward a → C.listen a.ip a.port = some m →
      sendReq w1 = some rq → accept uid rq = some w2 → Asks w2 target' ty' ev' →
      Calls C W act target' ty' ev' m w2 d r w3 → r ≠ .panic → sendRes w3 = some rs →
      Calls C W act target ty ev n w (d.map Delivery.far) .nil { w1 with res := rs.msg }

end Braid.Payload
