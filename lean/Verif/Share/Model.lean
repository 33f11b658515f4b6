import Verif.Lib.Lts
import Verif.Msg.Model

/-
Model of the objects behind a message wrapper: a wrapper points to a request and a response
message, a message points to its header, and any of these pointers can be held twice. The builder
functions, `Swap`, `Send`/`Call` and the mailbox loop of an actor read and write through them.
-/
namespace Braid.Share

/-- Byte strings (`Body []byte`, `Custom []byte`). (router/router.pb.go:29-40, 145-148) -/
abbrev Bytes := List UInt8

/-- router/router.pb.go:29-40 `type Header struct`. -/
abbrev Hdr := Braid.Msg.Header Bytes

/-- A header with no field set, as in `&router.Header{}`. (router/msg/msg.go:32-36) -/
def blank : Hdr :=
  { id := "", orgActorID := "", orgActorType := "", prevActorType := "", targetActorID := "",
    targetActorType := "", event := "", token := "", timestamp := 0, custom := [] }

/-- router/router.pb.go:145-148 `type Message struct`: a pointer to a header, or nil, and the body. -/
structure Cell where
  hp : Option Nat
  body : Bytes

/-- router/msg/msg.go:20-28 `type Wrapper struct`: the pointers `Req` and `Res`, the waitgroup held
by the context, and whether `Done` was made. `Err` and the serializers are left out. -/
structure Wr where
  req : Nat
  res : Nat
  grp : Nat
  done : Bool

/-- What a goroutine does: nothing, or a `Send` or `Call` that has written the header and not yet
delivered the wrapper. (core/node/system_impl.go:365-437) -/
inductive Pc
  | idle
  | sending (w : Nat) (a : String)

/-- The heap (headers, messages, wrappers and waitgroups, each with the next free address), the
goroutines and the mailboxes. A mailbox holds pointers to wrappers.
(core/actor/actor_runtime_impl.go:172-190) -/
structure State where
  hdr : Nat → Hdr
  nh : Nat
  cell : Nat → Cell
  nm : Nat
  wr : Nat → Wr
  nw : Nat
  ng : Nat
  pc : Nat → Pc
  mail : String → List Nat

/-- The actions: builder functions on a wrapper, a header made by the caller, `Swap`, the two halves
of `Send`/`Call`, one round of an actor's loop, and the two places that replace `Res`.
(router/msg/msg.go:47-133, core/node/system_impl.go:197-437, core/actor/actor_runtime_impl.go:323-346) -/
inductive Act
  | new (ctx : Option Nat) (uid : String)
  | swap (w : Nat)
  | header (h : Hdr)
  | reqHeader (w : Nat) (p : Option Nat)
  | resHeader (w : Nat) (p : Option Nat)
  | reqBody (w : Nat) (b : Bytes)
  | resBody (w : Nat) (b : Bytes)
  | reqCustom (w : Nat) (b : Bytes)
  | resCustom (w : Nat) (b : Bytes)
  | stamp (g w : Nat) (a ty ev : String)
  | push (g : Nat)
  | drop (g : Nat)
  | handle (a : String)
  | reply (w : Nat) (h : Option Hdr) (b : Bytes)
  | take (w w' : Nat)

/-- The observable events. `copied`: the fields of a header were copied into the request header;
`cleared`: the request header was set to nil; `linked`/`resLinked`: the request or response now points
to the header `p`. (router/msg/msg.go:85-113) -/
inductive Ev
  | made (w : Nat)
  | swapped (w w' : Nat)
  | header (p : Nat)
  | copied (w : Nat) (h : Hdr)
  | cleared (w : Nat)
  | linked (w p : Nat)
  | resLinked (w : Nat) (p : Option Nat)
  | stamped (g w : Nat) (a ev : String)
  | pushed (g w : Nat) (a : String)
  | dropped (g w : Nat) (a : String)
  | handled (a : String) (w : Nat) (ev : Option String)
  | replied (w : Nat)
  | took (w w' : Nat)
  | panicked
deriving DecidableEq

/-- The empty heap. (router/msg/msg.go:47-69) -/
def init : State :=
  { hdr := fun _ => blank, nh := 0, cell := fun _ => ⟨none, []⟩, nm := 0,
    wr := fun _ => ⟨0, 0, 0, false⟩, nw := 0, ng := 0, pc := fun _ => .idle, mail := fun _ => [] }

/-- router/msg/msg.go:47-69 `NewBuilder` (and 125-133 `ToBuilder` of nil): two new messages with new
headers that carry the same id; the waitgroup is that of the context, else a new one. -/
def newWrapper (s : State) (ctx : Option Nat) (uid : String) : State :=
  { s with
    hdr := upd (upd s.hdr s.nh { blank with id := uid }) (s.nh + 1) { blank with id := uid }
    nh := s.nh + 2
    cell := upd (upd s.cell s.nm ⟨some s.nh, []⟩) (s.nm + 1) ⟨some (s.nh + 1), []⟩
    nm := s.nm + 2
    wr := upd s.wr s.nw ⟨s.nm, s.nm + 1, ctx.getD s.ng, false⟩
    nw := s.nw + 1
    ng := if ctx.isSome then s.ng else s.ng + 1 }

/-- router/msg/msg.go:71-83 `Swap`: a new wrapper with the same `Req` and the same `Res`, a new
waitgroup and a `Done` channel. -/
def swapWrapper (s : State) (w : Nat) : State :=
  { s with
    wr := upd s.wr s.nw ⟨(s.wr w).req, (s.wr w).res, s.ng, true⟩
    nw := s.nw + 1
    ng := s.ng + 1 }

/-- router/msg/msg.go:85-97: all fields of the given header but the timestamp. -/
def copyFrom (old h : Hdr) : Hdr :=
  { id := h.id, event := h.event, orgActorID := h.orgActorID, orgActorType := h.orgActorType,
    token := h.token, prevActorType := h.prevActorType, targetActorID := h.targetActorID,
    targetActorType := h.targetActorType, custom := h.custom, timestamp := old.timestamp }

/-- router/msg/msg.go:85-102 `WithReqHeader`. -/
def reqHeader (s : State) (w : Nat) (p : Option Nat) : State × List Ev :=
  match (s.cell (s.wr w).req).hp, p with
  | some q, some p =>
    ({ s with hdr := upd s.hdr q (copyFrom (s.hdr q) (s.hdr p)) }, [.copied w (s.hdr p)])
  | _, p =>
    ({ s with cell := upd s.cell (s.wr w).req { s.cell (s.wr w).req with hp := p } },
      match p with
      | some p => [.linked w p]
      | none => [.cleared w])

/-- router/msg/msg.go:110-113 `WithResHeader`: the response points to the given header. -/
def resHeader (s : State) (w : Nat) (p : Option Nat) : State :=
  { s with cell := upd s.cell (s.wr w).res { s.cell (s.wr w).res with hp := p } }

/-- router/msg/msg.go:104-107, 115-118 `WithReqBody` and `WithResBody` on the message `m`. -/
def setBody (s : State) (m : Nat) (b : Bytes) : State :=
  { s with cell := upd s.cell m { s.cell m with body := b } }

/-- router/msg/msg_custom_map.go:34-44, 63-73: the encoded custom fields are stored in the header of
the message `m`; a nil header panics. Encoding is described in `Verif.Msg`. -/
def setCustom (s : State) (m : Nat) (b : Bytes) : State × List Ev :=
  match (s.cell m).hp with
  | some p => ({ s with hdr := upd s.hdr p { s.hdr p with custom := b } }, [])
  | none => (s, [.panicked])

/-- core/node/system_impl.go:199-201, 365-369: `Call` and `Send` write event and target into the header of
the request; a nil header panics. The origin written by `Runtime.Call` is described in
`Verif.System`. -/
def stamp (s : State) (g w : Nat) (a ty ev : String) : State × List Ev :=
  match (s.cell (s.wr w).req).hp with
  | some p =>
    ({ s with
        hdr := upd s.hdr p
          { s.hdr p with event := ev, targetActorID := a, targetActorType := ty }
        pc := upd s.pc g (.sending w a) }, [.stamped g w a ev])
  | none => (s, [.panicked])

/-- core/actor/actor_runtime_impl.go:323-346: the loop takes a wrapper from its mailbox and looks its
handlers up under the event that the header holds then; a nil header panics, which is recovered
(`none`). -/
def eventOf (s : State) (w : Nat) : Option String :=
  (s.cell (s.wr w).req).hp.map fun p => (s.hdr p).event

/-- core/node/system_impl.go:359 (`mw.Res = res.Msg`): the response is the message decoded from the
reply. -/
def reply (s : State) (w : Nat) (h : Option Hdr) (b : Bytes) : State :=
  match h with
  | some h =>
    { s with
      hdr := upd s.hdr s.nh h, nh := s.nh + 1
      cell := upd s.cell s.nm ⟨some s.nh, b⟩, nm := s.nm + 1
      wr := upd s.wr w { s.wr w with res := s.nm } }
  | none =>
    { s with
      cell := upd s.cell s.nm ⟨none, b⟩, nm := s.nm + 1
      wr := upd s.wr w { s.wr w with res := s.nm } }

/-- One action. Only objects that exist can be used: a wrapper `w < nw`, a header `p < nh`. A
delivery that fails, or goes to another node, is `drop`; which of them happens is described in
`Verif.System`. (router/msg/msg.go:47-133, router/msg/msg_custom_map.go:34-73,
core/node/system_impl.go:197-437, core/actor/actor_runtime_impl.go:172-190, 267, 323-346) -/
def step (s : State) : Act → Option (State × List Ev)
  | .new ctx uid =>
    if ∀ c, ctx = some c → c < s.ng then some (newWrapper s ctx uid, [.made s.nw]) else none
  | .swap w => if w < s.nw then some (swapWrapper s w, [.swapped w s.nw]) else none
  | .header h => some ({ s with hdr := upd s.hdr s.nh h, nh := s.nh + 1 }, [.header s.nh])
  | .reqHeader w p => if w < s.nw ∧ ∀ q, p = some q → q < s.nh then some (reqHeader s w p) else none
  | .resHeader w p =>
    if w < s.nw ∧ ∀ q, p = some q → q < s.nh then some (resHeader s w p, [.resLinked w p]) else none
  | .reqBody w b => if w < s.nw then some (setBody s (s.wr w).req b, []) else none
  | .resBody w b => if w < s.nw then some (setBody s (s.wr w).res b, []) else none
  | .reqCustom w b => if w < s.nw then some (setCustom s (s.wr w).req b) else none
  | .resCustom w b => if w < s.nw then some (setCustom s (s.wr w).res b) else none
  | .stamp g w a ty ev =>
    match s.pc g with
    | .idle => if w < s.nw then some (stamp s g w a ty ev) else none
    | .sending _ _ => none
  | .push g =>
    match s.pc g with
    | .sending w a =>
      some ({ s with pc := upd s.pc g .idle, mail := upd s.mail a (s.mail a ++ [w]) }, [.pushed g w a])
    | .idle => none
  | .drop g =>
    match s.pc g with
    | .sending w a => some ({ s with pc := upd s.pc g .idle }, [.dropped g w a])
    | .idle => none
  | .handle a =>
    match s.mail a with
    | w :: rest => some ({ s with mail := upd s.mail a rest }, [.handled a w (eventOf s w)])
    | [] => none
  | .reply w h b => if w < s.nw then some (reply s w h b, [.replied w]) else none
  | .take w w' =>
    if w < s.nw ∧ w' < s.nw then
      some ({ s with wr := upd s.wr w { s.wr w with res := (s.wr w').res } }, [.took w w'])
    else none

/-- The transition system. (router/msg/msg.go:47-133, core/node/system_impl.go:197-437) -/
def sys : Lts State Act Ev := ⟨init, step⟩

end Braid.Share
