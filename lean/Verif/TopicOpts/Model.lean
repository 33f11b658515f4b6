import Verif.Lib.Lts

/-
Model of the creation of topics: `lib/pubsub/ps_mgr.go`, `lib/pubsub/ps_topic.go` `newTopic`,
`lib/pubsub/ps_opts.go`, `core/node/system_impl.go` `Sub` and the call of it in
`core/actor/actor_runtime_impl.go` `Sub`, with Redis keys that expire.

Simplifications: one node; the lock makes `CreateTopic` one step; a stream is known by its name and by the time
(in seconds) at which it expires. Each Redis command succeeds or fails.
-/
namespace Braid.TopicOpts

/-- `ps_opts.go` L33-56: `WithTTL(d)`, in nanoseconds, and `WithSubSuccCallback`. (lib/pubsub/ps_opts.go:33-56) -/
inductive TOpt
  | ttl (d : Int)
  | callback
deriving DecidableEq

/-- Which commands of `newTopic` succeed. (lib/pubsub/ps_topic.go:24-68) -/
structure Out where
  existsOk : Bool
  addOk : Bool
  expireOk : Bool
  saddOk : Bool

/-- lib/pubsub/ps_mgr.go:7-13. -/
structure State where
  /-- seconds -/
  now : Int
  /-- `ps_mgr.go` L12 -/
  topicMap : List String
  /-- Redis: the stream exists -/
  stream : String → Bool
  /-- Redis: when it expires -/
  expiry : String → Option Int
  /-- Redis: the set `braid.pubsub.streams` -/
  listed : List String

/-- What is seen of a run. (lib/pubsub/ps_topic.go:24-83) -/
inductive Ev
  /-- `Sub(topic, …, opts…)` of an actor, whether it returned no error -/
  | sub (topic : String) (opts : List TOpt) (ok : Bool)
  /-- `CreateTopic(topic, opts…)` -/
  | create (topic : String) (opts : List TOpt)
  | time (d : Nat)
deriving DecidableEq

/-- Who takes the next step. (lib/pubsub/ps_topic.go:24-83, lib/pubsub/ps_mgr.go:31-60) -/
inductive Act
  /-- `grp`: the consumer group can be created if the stream exists -/
  | sub (topic : String) (opts : List TOpt) (o : Out) (grp : Bool)
  | create (topic : String) (opts : List TOpt) (o : Out)
  | time (d : Nat)

/-- `ps_opts.go` L45-56. (lib/pubsub/ps_opts.go:45-56) -/
def applyOpt (t : Int) : TOpt → Int
  | .ttl d => d
  | .callback => t

/-- `ps_topic.go` L34-37: `options.ttl`. (lib/pubsub/ps_topic.go:34-37) -/
def ttlOf (opts : List TOpt) : Int := opts.foldl applyOpt 0

/-- go-redis v9 `formatSec`: the seconds sent with `EXPIRE`. (lib/pubsub/ps_topic.go:24-68) -/
def secs (d : Int) : Int := if 0 < d ∧ d < 1000000000 then 1 else d / 1000000000

/-- `ps_topic.go` L24-68 `newTopic`: L39 a failed `EXISTS` counts as 0; L41 `XADD`; L50 `XDEL` leaves an empty
stream; L51-56; L58. (lib/pubsub/ps_topic.go:24-68) -/
def newTopic (s : State) (o : Out) (name : String) (opts : List TOpt) : State :=
  if o.existsOk ∧ s.stream name then s
  else if ¬ o.addOk then s
  else { s with
    stream := upd s.stream name true
    expiry := if ttlOf opts > 0 ∧ o.expireOk then upd s.expiry name (some (s.now + secs (ttlOf opts))) else s.expiry
    listed := if o.saddOk then name :: s.listed else s.listed }

/-- `ps_mgr.go` L42-54. (lib/pubsub/ps_mgr.go:42-54) -/
def createTopic (s : State) (o : Out) (name : String) (opts : List TOpt) : State :=
  if name ∈ s.topicMap then s else { newTopic s o name opts with topicMap := name :: s.topicMap }

/-- `ps_mgr.go` L56-61, L31-40. (lib/pubsub/ps_mgr.go:31-61) -/
def getOrCreateTopic (s : State) (o : Out) (name : String) (opts : List TOpt) : State :=
  if name ∈ s.topicMap then s else createTopic s o name opts

/-- `system_impl.go` L451-453: `sys.ps.GetOrCreateTopic(topic).Sub(context.TODO(), channel)`; the options are not
passed on. The error is that of `XGROUP CREATE` (`ps_channel.go` L38), which needs the stream.
(core/node/system_impl.go:451-453) -/
def sysSub (s : State) (o : Out) (grp : Bool) (topic : String) (_opts : List TOpt) : State × Bool :=
  (getOrCreateTopic s o topic [], grp && (getOrCreateTopic s o topic []).stream topic)

/-- Redis: has the stream expired at time `t`? (lib/pubsub/ps_topic.go:24-68) -/
def gone (t : Int) : Option Int → Bool
  | some e => e ≤ t
  | none => false

/-- lib/pubsub/ps_topic.go:24-150. -/
def step (s : State) : Act → Option (State × List Ev)
  /- `actor_runtime_impl.go` L147 `a.Sys.Sub(topic, channel, opts...)` -/
  | .sub t opts o grp => some ((sysSub s o grp t opts).1, [.sub t opts (sysSub s o grp t opts).2])
  | .create t opts o => some (createTopic s o t opts, [.create t opts])
  | .time d => some ({ s with
      now := s.now + d
      stream := fun x => s.stream x && !gone (s.now + d) (s.expiry x)
      expiry := fun x => if gone (s.now + d) (s.expiry x) then none else s.expiry x }, [.time d])

/-- No topic yet. (lib/pubsub/ps_mgr.go:15-29) -/
def init : State := ⟨0, [], fun _ => false, fun _ => none, []⟩

/-- The system. (lib/pubsub/ps_topic.go:24-83, lib/pubsub/ps_mgr.go:31-60) -/
def sys : Lts State Act Ev := ⟨init, step⟩

end Braid.TopicOpts
