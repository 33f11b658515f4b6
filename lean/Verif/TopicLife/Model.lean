import Verif.Lib.Lts

/-
Model of the life of a topic: `newTopic`, `Topic.Pub`, `Topic.Sub`, `Topic.Close` (lib/pubsub/ps_topic.go) with `newChannel`
(lib/pubsub/ps_channel.go), called by any number of goroutines of any number of processes for one topic. Every Redis command
is one step; a command may fail, or be executed and its answer be lost.

Simplified: the subscribers are represented by the commands they send (one entry is read at a time, although `COUNT 10` reads
up to ten at once; an entry is deleted some time after it was read); `EXPIRE` and the set of topic names (L51-61, L126) are left
out (see `Verif/TopicOpts`), only that a stream may expire is kept. The ids of entries are numbers.
-/
namespace Braid.TopicLife

/-- What an entry of the stream holds. (lib/pubsub/ps_topic.go:43, 79) -/
inductive Content
  /-- L43: the entry that creates the stream -/
  | new
  /-- L79; `tag` tells publications apart -/
  | msg (tag : Nat) (event : String) (body : List UInt8)
deriving DecidableEq

/-- A stream and its groups with their last delivered ids. (lib/pubsub/ps_topic.go:24-83, lib/pubsub/ps_channel.go:37) -/
structure Stream where
  entries : List (Nat × Content)
  last : Nat
  groups : List (String × Nat)
deriving DecidableEq

/-- A call. (lib/pubsub/ps_topic.go:24, 70, 85, 104) -/
inductive Op
  | create
  | pub (event : String) (body : List UInt8)
  | sub (group : String) (fromStart : Bool)
  | close
deriving DecidableEq

/-- Where a goroutine is. (lib/pubsub/ps_topic.go:24-137) -/
inductive Pc
  | idle
  /-- L39 -/
  | nExists
  /-- L41 -/
  | nAdd
  /-- L50 -/
  | nDel (id : Nat)
  /-- L72-80 -/
  | pAdd (event : String) (body : List UInt8)
  /-- ps_channel.go:37 -/
  | sGroup (group : String) (fromStart : Bool)
  /-- L107 -/
  | cGroups
  /-- L118 -/
  | cLen
  /-- L124-128 -/
  | cDel
deriving DecidableEq

/-- What became of a command. (3rd/redis/client.go:307-470) -/
inductive Net
  | ok
  /-- it was not executed -/
  | failed
  /-- it was executed and the answer did not arrive -/
  | lost
deriving DecidableEq

/-- What can be observed. (lib/pubsub/ps_topic.go:24-137) -/
inductive Ev
  | begin (g : Nat) (o : Op)
  /-- `err`: it returned an error -/
  | finish (g : Nat) (o : Op) (err : Bool)
  /-- a command of a call failed, or its answer was lost -/
  | fault (g : Nat) (o : Op)
  /-- an entry came into the stream -/
  | added (c : Content)
  /-- a group was created -/
  | grouped (group : String)
  /-- a subscriber on the channel received an entry -/
  | got (group : String) (c : Content)
  /-- `Close` deleted the stream, in which there were these entries and groups -/
  | erased (g : Nat) (l : List Content) (groups : List String)
  /-- the stream expired -/
  | expired
deriving DecidableEq

/-- The stream, if there is one, and the goroutines. (lib/pubsub/ps_topic.go:14-22) -/
structure State where
  stream : Option Stream
  /-- number of entries added so far; also the source of ids and tags -/
  next : Nat
  /-- the entries that were read, by channel -/
  seen : List (String × Nat)
  pc : Nat → Pc

/-- No stream. (lib/pubsub/ps_topic.go:24-30) -/
def init : State := ⟨none, 1, [], fun _ => .idle⟩

/-- What happens next. (lib/pubsub/ps_topic.go:24-137, lib/pubsub/ps_channel.go:46-116) -/
inductive Act
  | start (g : Nat) (o : Op)
  | go (g : Nat) (net : Net)
  /-- a subscriber on a channel reads the next entry (ps_channel.go:49) -/
  | read (group : String)
  /-- a subscriber on a channel deletes an entry that it has read (ps_channel.go:106) -/
  | del (group : String) (id : Nat)
  | expire

/-- `XADD`: it creates the stream if there is none. (lib/pubsub/ps_topic.go:41, 76) -/
def xadd (s : State) (c : Content) : State :=
  let t := s.stream.getD ⟨[], 0, []⟩
  { s with stream := some { t with entries := t.entries ++ [(s.next, c)], last := s.next }, next := s.next + 1 }

/-- `XDEL`. (lib/pubsub/ps_topic.go:50, lib/pubsub/ps_channel.go:106) -/
def xdel (s : State) (id : Nat) : State :=
  { s with stream := s.stream.map fun t => { t with entries := t.entries.filter (·.1 ≠ id) } }

/-- The goroutine `g` goes on. (lib/pubsub/ps_topic.go:24-137) -/
def at_ (s : State) (g : Nat) (p : Pc) : State := { s with pc := upd s.pc g p }

/-- The last id delivered to a group. (lib/pubsub/ps_channel.go:49-55) -/
def lastOf (groups : List (String × Nat)) (group : String) : Option Nat := groups.lookup group

/-- A step of goroutine `g`. (lib/pubsub/ps_topic.go:24-137, lib/pubsub/ps_channel.go:27-44) -/
def stepGo (s : State) (g : Nat) (net : Net) : Option (State × List Ev) :=
  match s.pc g with
  | .idle => none
  | .nExists => -- L39-40
    if net = .ok then
      if s.stream.isSome then some (at_ s g .idle, [.finish g .create false]) else some (at_ s g .nAdd, [])
    else some (at_ s g .nAdd, [.fault g .create]) -- the error is dropped, cnt = 0
  | .nAdd => -- L41-47
    match net with
    | .ok => some (at_ (xadd s .new) g (.nDel s.next), [.added .new])
    | .failed => some (at_ s g .idle, [.fault g .create, .finish g .create false])
    | .lost => some (at_ (xadd s .new) g .idle, [.added .new, .fault g .create, .finish g .create false])
  | .nDel id => -- L50; errors are dropped
    match net with
    | .ok => some (at_ (xdel s id) g .idle, [.finish g .create false])
    | .failed => some (at_ s g .idle, [.fault g .create, .finish g .create false])
    | .lost => some (at_ (xdel s id) g .idle, [.fault g .create, .finish g .create false])
  | .pAdd event body => -- L72-82
    if event = "" then some (at_ s g .idle, [.finish g (.pub event body) true])
    else
      match net with
      | .ok => some (at_ (xadd s (.msg s.next event body)) g .idle,
          [.added (.msg s.next event body), .finish g (.pub event body) false])
      | .failed => some (at_ s g .idle, [.fault g (.pub event body), .finish g (.pub event body) true])
      | .lost => some (at_ (xadd s (.msg s.next event body)) g .idle,
          [.added (.msg s.next event body), .fault g (.pub event body), .finish g (.pub event body) true])
  | .sGroup group fromStart => -- ps_channel.go:37-43
    let o : Op := .sub group fromStart
    if net = .failed then some (at_ s g .idle, [.fault g o, .finish g o true])
    else
      let back : List Ev := if net = .ok then [.finish g o false] else [.fault g o, .finish g o true]
      match s.stream with
      | none => some (at_ s g .idle, (if net = .ok then [] else [.fault g o]) ++ [.finish g o true]) -- the key must exist
      | some t =>
        if lastOf t.groups group = none then
          some (at_ { s with stream := some { t with groups := t.groups ++ [(group, if fromStart then 0 else t.last)] } } g .idle,
            .grouped group :: back)
        else some (at_ s g .idle, back) -- BUSYGROUP
  | .cGroups => -- L107-117
    if net = .ok then
      match s.stream with
      | none => some (at_ s g .cLen, []) -- no such key
      | some t => if t.groups = [] then some (at_ s g .cLen, []) else some (at_ s g .idle, [.finish g .close false])
    else some (at_ s g .idle, [.fault g .close, .finish g .close true])
  | .cLen => -- L118-123
    if net = .ok then
      if (s.stream.map (·.entries)).getD [] = [] then some (at_ s g .cDel, [])
      else some (at_ s g .idle, [.finish g .close false])
    else some (at_ s g .idle, [.fault g .close, .finish g .close true])
  | .cDel => -- L124-131
    let gone : Ev := .erased g ((s.stream.map fun t => t.entries.map (·.2)).getD [])
      ((s.stream.map fun t => t.groups.map (·.1)).getD [])
    match net with
    | .ok => some (at_ { s with stream := none } g .idle, [gone, .finish g .close false])
    | .failed => some (at_ s g .idle, [.fault g .close, .finish g .close true])
    | .lost => some (at_ { s with stream := none } g .idle, [gone, .fault g .close, .finish g .close true])

/-- Where a call begins. (lib/pubsub/ps_topic.go:24, 70, 85, 104) -/
def entry : Op → Pc
  | .create => .nExists
  | .pub e b => .pAdd e b
  | .sub c f => .sGroup c f
  | .close => .cGroups

/-- A new last delivered id. (lib/pubsub/ps_channel.go:49-55) -/
def advance (groups : List (String × Nat)) (group : String) (id : Nat) : List (String × Nat) :=
  groups.map fun p => if p.1 = group then (p.1, id) else p

/-- One step. (lib/pubsub/ps_topic.go:24-137, lib/pubsub/ps_channel.go:46-116) -/
def step (s : State) : Act → Option (State × List Ev)
  | .start g o => if s.pc g = .idle then some (at_ s g (entry o), [.begin g o]) else none
  | .go g net => stepGo s g net
  | .read group =>
    match s.stream with
    | none => none
    | some t =>
      match lastOf t.groups group with
      | none => none
      | some l =>
        match t.entries.find? (l < ·.1) with
        | none => none
        | some e =>
          some ({ s with stream := some { t with groups := advance t.groups group e.1 }, seen := (group, e.1) :: s.seen },
            [.got group e.2])
  | .del group id => if (group, id) ∈ s.seen then some (xdel s id, []) else none
  | .expire => if s.stream.isSome then some ({ s with stream := none }, [.expired]) else none

/-- A topic. (lib/pubsub/ps_topic.go:14-137) -/
def sys : Lts State Act Ev := ⟨init, step⟩

end Braid.TopicLife
