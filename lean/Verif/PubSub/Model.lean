import Verif.Lib.Lts

/-
Model of publish and subscribe over a Redis stream: `lib/pubsub/ps_channel.go`, `ps_topic.go`, `ps_mgr.go`, and
`NormalSystem.Pub`/`Sub` (core/node/system_impl.go:447-453).

One topic, any number of channels (stream groups), subscribers (`*Channel` values, each a group consumer with
its read loop and one handler goroutine, as `Runtime.Sub` makes them, core/actor/actor_runtime_impl.go:145-157)
and publishers. Every Redis command is one step. The buffer between loop and handler is a FIFO list, which is
what `Verif/Unbounded` proves of it for one producer and one consumer; the mailbox push is one step.

Simplified: the ids of stream entries are numbers (Redis orders them and never reuses one while the stream
exists); XACK has no effect on what is delivered and is left out. `exitFlag` is never set by the code
(ps_channel.go:62 is its only use). XGROUP CREATE
fails when there is no stream: a `sub` after `drop` stands for one in a process that does not know the topic yet, where
`newTopic` makes the stream again; the `Sub` that fails changes nothing and is left out (`Verif/TopicLife` has both).
-/
namespace Braid.PubSub

/-- A published message; `tag` tells publications apart. (lib/pubsub/ps_topic.go:70-83) -/
structure Msg where
  tag : Nat
  event : String
  body : List UInt8
deriving DecidableEq

/-- An entry of the stream. (lib/pubsub/ps_topic.go:70-83) -/
structure Entry where
  id : Nat
  msg : Msg
deriving DecidableEq

/-- Where `Close` of a subscriber is (ps_channel.go:122-144). -/
inductive ClosePc
  | no
  /-- L124 done -/
  | deleted
  /-- L136: no consumers are left -/
  | empty
deriving DecidableEq

/-- ps_channel.go:18-25 `type Channel struct`, with its two goroutines. -/
structure Sub where
  /-- exists and its process runs -/
  on : Bool
  group : String
  /-- loop: messages that were read and not yet put into `msgCh` (L57-76) -/
  batch : List Entry
  /-- `msgCh` -/
  buf : List Entry
  /-- handler: a message that was pushed and not yet deleted (L105-108) -/
  ack : Option Entry
  close : ClosePc

/-- The streams and the subscribers. (lib/pubsub/ps_topic.go:14-22, lib/pubsub/ps_channel.go:18-25) -/
structure State where
  /-- the stream -/
  entries : List Entry
  /-- its last generated id -/
  last : Nat
  /-- its groups, and their last delivered ids -/
  groups : String → Option Nat
  /-- the consumers of the groups -/
  consumers : String → List Nat
  subs : Nat → Sub
  /-- number of publications so far -/
  tags : Nat

/-- No subscriber yet. (lib/pubsub/ps_channel.go:27-44) -/
def noSub : Sub := ⟨false, "", [], [], none, .no⟩

/-- ps_topic.go:24-68 `newTopic`: the stream exists and is empty. -/
def init : State := ⟨[], 0, fun _ => none, fun _ => [], fun _ => noSub, 0⟩

/-- lib/pubsub/ps_channel.go:38-137. -/
inductive Ev
  /-- `Pub` returned nil -/
  | pub (m : Msg)
  /-- `Pub` returned an error without publishing -/
  | pubErr
  /-- subscriber `c` on channel `g` started -/
  | sub (c : Nat) (g : String)
  /-- the group was created, at the beginning of the stream or at its end -/
  | group (g : String) (fromStart : Bool)
  /-- the group was removed -/
  | destroyed (g : String)
  /-- the message was pushed into the mailbox of subscriber `c` -/
  | deliver (c : Nat) (m : Msg)
  /-- the process of subscriber `c` ended -/
  | crash (c : Nat)
  /-- the stream was deleted: `Topic.Close` (ps_topic.go:124) or its time to live -/
  | dropped
deriving DecidableEq

/-- Who takes the next step. (lib/pubsub/ps_topic.go:70-157, lib/pubsub/ps_channel.go:27-144) -/
inductive Act
  /-- `Pub`; Redis gives the id `last + 1 + k` -/
  | pub (event : String) (body : List UInt8) (k : Nat)
  /-- `Sub` of a new subscriber; `fromStart`: ReadModeBeginning -/
  | sub (c : Nat) (g : String) (fromStart : Bool)
  /-- XREADGROUP of the loop of `c` -/
  | read (c : Nat)
  /-- the loop puts a message into `msgCh` -/
  | put (c : Nat)
  /-- the handler receives a message and pushes it into the mailbox -/
  | handle (c : Nat)
  /-- the handler deletes the message from the stream; `ok = false`: the pipeline fails -/
  | del (c : Nat) (ok : Bool)
  /-- the next command of `Close` of `c` -/
  | close (c : Nat)
  | crash (c : Nat)
  | drop

/-- The entries a group has not been given: XREADGROUP with ">" and COUNT 10. (lib/pubsub/ps_channel.go:46-80) -/
def unread (es : List Entry) (last : Nat) : List Entry := (es.filter (last < ·.id)).take 10

/-- The last delivered id after reading the entries. (lib/pubsub/ps_channel.go:46-80) -/
def advance (last : Nat) (es : List Entry) : Nat := (es.getLast?.map (·.id)).getD last

/-- lib/pubsub/ps_channel.go:38-137. -/
def step (s : State) : Act → Option (State × List Ev)
  | .pub event body k => -- ps_topic.go:70-83
    if event = "" then some (s, [.pubErr])
    else
      let m : Msg := ⟨s.tags, event, body⟩
      some ({ s with
        entries := s.entries ++ [⟨s.last + 1 + k, m⟩]
        last := s.last + 1 + k
        tags := s.tags + 1 }, [.pub m])
  | .sub c g fromStart => -- ps_channel.go:27-44
    if (s.subs c).on ∨ (s.subs c).group ≠ "" ∨ g = "" then none
    else
      let s' := { s with subs := upd s.subs c ⟨true, g, [], [], none, .no⟩ }
      match s.groups g with
      | some _ => some (s', [.sub c g]) -- L38: BUSYGROUP
      | none => some ({ s' with groups := upd s.groups g (some (if fromStart then 0 else s.last)) },
          [.group g fromStart, .sub c g])
  | .read c => -- ps_channel.go:49-55
    let u := s.subs c
    if u.on ∧ u.batch = [] then
      match s.groups u.group with
      | none => some (s, []) -- NOGROUP: no messages
      | some l =>
        let es := unread s.entries l
        some ({ s with
          groups := upd s.groups u.group (some (advance l es))
          consumers := if c ∈ s.consumers u.group then s.consumers
            else upd s.consumers u.group (c :: s.consumers u.group)
          subs := upd s.subs c { u with batch := es } }, [])
    else none
  | .put c => -- ps_channel.go:57-76
    let u := s.subs c
    match u.on, u.batch with
    | true, e :: r => some ({ s with subs := upd s.subs c { u with batch := r, buf := u.buf ++ [e] } }, [])
    | _, _ => none
  | .handle c => -- ps_channel.go:86-103
    let u := s.subs c
    match u.on, u.ack, u.buf with
    | true, none, e :: r =>
      some ({ s with subs := upd s.subs c { u with buf := r, ack := some e } }, [.deliver c e.msg])
    | _, _, _ => none
  | .del c ok => -- ps_channel.go:105-111
    let u := s.subs c
    match u.on, u.ack with
    | true, some e =>
      some ({ s with
        entries := if ok then s.entries.filter (·.id ≠ e.id) else s.entries
        subs := upd s.subs c { u with ack := none } }, [])
    | _, _ => none
  | .close c => -- ps_channel.go:122-144
    let u := s.subs c
    if u.on then
      match u.close with
      | .no => -- L124
        some ({ s with
          consumers := upd s.consumers u.group ((s.consumers u.group).filter (· ≠ c))
          subs := upd s.subs c { u with close := .deleted } }, [])
      | .deleted => -- L130-136
        let pc : ClosePc := if s.consumers u.group = [] then .empty else .no
        some ({ s with subs := upd s.subs c { u with close := pc } }, [])
      | .empty => -- L137
        some ({ s with
          groups := upd s.groups u.group none
          consumers := upd s.consumers u.group []
          subs := upd s.subs c { u with close := .no } }, [.destroyed u.group])
    else none
  | .crash c =>
    if (s.subs c).on then
      some ({ s with subs := upd s.subs c { s.subs c with on := false } }, [.crash c])
    else none
  | .drop => -- ps_topic.go:123-126
    some ({ s with entries := [], last := 0, groups := fun _ => none, consumers := fun _ => [] }, [.dropped])

/-- lib/pubsub/ps_channel.go:38-137. -/
def sys : Lts State Act Ev := ⟨init, step⟩

/-! ### The topics of a process (ps_mgr.go, system_impl.go:447-453) -/

/-- What `Pub` does. (lib/pubsub/ps_topic.go:70-83, core/node/system_impl.go:447-449) -/
inductive PubRes
  | ok
  | err
  | panic
deriving DecidableEq

/-- system_impl.go:447-449 with ps_mgr.go:31-39 and ps_topic.go:70-83: `GetTopic` returns nil for a name that is
not in `topicMap`, and `Pub` reads `rt.topic` after the check of the event. `redis`: XADD succeeds. -/
def sysPub (topicMap : List String) (redis : Bool) (topic event : String) : PubRes :=
  if event = "" then .err
  else if topic ∈ topicMap then (if redis then .ok else .err)
  else .panic

/-- system_impl.go:451-453, ps_mgr.go:41-60: `Sub` and the topic map. -/
def sysSub (topicMap : List String) (topic : String) : List String :=
  if topic ∈ topicMap then topicMap else topic :: topicMap

end Braid.PubSub
