/-
Model of the wrappers around Redis commands: `3rd/redis/client.go` L62-479, with `doTracing` of
`3rd/redis/client_utils.go` L31-33.

Simplifications: values of type `interface{}` and `any`, scripts, functions and the arguments of `XADD` are numbers that
stand for them. What go-redis (v9.6.1) sends for a method is written out in `sent` below as its sources have it; that it
repeats a command after a network error, and that `Script.Run` sends the whole script if the server does not know its
hash, is left out: an event is one call of a method. Durations are in nanoseconds. Printing is left out.
-/
namespace Braid.RedisOps

/-- The context of a command: the one the caller gave, `context.TODO()`, or none. (3rd/redis/client.go:79-91) -/
inductive Ctx
  | given
  | todo
  | absent
deriving DecidableEq

/-- A call of one of the wrappers, with its arguments. (3rd/redis/client.go:62-479) -/
inductive Op
  | txPipelined (origin : String) (fn : Nat)
  | pipelined (origin : String) (fn : Nat)
  | connHGet (conn : Option Nat) (key field : String)
  | get (key : String)
  | set (key val : String)
  | del (keys : List String)
  | setEx (key : String) (value : Nat) (expiration : Int)
  | setNx (key : String) (value : Nat) (expiration : Int)
  | sAdd (key : String) (members : List Nat)
  | sIsMember (key : String) (member : Nat)
  | sMembers (key : String)
  | sRandMember (key : String)
  | sRandMemberN (key : String) (count : Int)
  | sPop (key : String)
  | sCard (key : String)
  | zScore (key member : String)
  | zAdd (key : String) (members : List Nat)
  | zRevRank (key member : String)
  | zRevRange (key : String) (start stop : Int)
  | zCard (key : String)
  | zRangeByScore (key : String) (min max : String) (offset count : Int)
  | zRem (key : String) (members : List Nat)
  | hGet (key field : String)
  | hGetAll (key : String)
  | hSet (key : String) (values : List Nat)
  | hDel (key : String) (fields : List String)
  | hLen (key : String)
  | hIncrBy (key field : String) (incr : Int)
  | hKeys (key : String)
  | exist (key : String)
  | hExists (key field : String)
  | cad (key field : String)
  | xInfoGroups (key : String)
  | xGroupCreate (key group start : String)
  | xGroupDelConsumer (key group consumer : String)
  | xInfoConsumers (key group : String)
  | xReadGroup (group consumer : String) (streams : List String) (count block : Int) (noAck : Bool)
  | xGroupDestroy (key group : String)
  | xLen (key : String)
  | xDel (key id : String)
  | scriptRun (script : Nat) (keys : List String) (args : List Nat)
  | scriptRunInt64s (script : Nat) (keys : List String) (args : List Nat)
  | lRange (key : String) (start stop : Int)
  | expire (key : String) (expiration : Int)
  | rPush (key : String) (values : List Nat)
  | flushDB
  | flushAll
  | poolStats
  | xAdd (a : Nat)
  | incr (key : String)
  | keys (pattern : String)
deriving DecidableEq

/-- An argument of a command: text, a number, or a value. (3rd/redis/client.go:62-479) -/
inductive Word
  | s (t : String)
  | n (i : Int)
  | v (x : Nat)
deriving DecidableEq

/-- A call of a method of the client (or of the connection `conn`, or of a script), with its arguments.
(3rd/redis/client.go:62-479) -/
inductive Meth
  | TxPipelined (fn : Nat)
  | Pipelined (fn : Nat)
  | Get (key : String)
  | Set (key val : String) (expiration : Int)
  | Del (keys : List String)
  | SetEx (key : String) (value : Nat) (expiration : Int)
  | SetNX (key : String) (value : Nat) (expiration : Int)
  | SAdd (key : String) (members : List Nat)
  | SIsMember (key : String) (member : Nat)
  | SMembers (key : String)
  | SRandMember (key : String)
  | SRandMemberN (key : String) (count : Int)
  | SPop (key : String)
  | SCard (key : String)
  | ZScore (key member : String)
  | ZAdd (key : String) (members : List Nat)
  | ZRevRank (key member : String)
  | ZRevRange (key : String) (start stop : Int)
  | ZCard (key : String)
  | ZRangeByScore (key : String) (min max : String) (offset count : Int)
  | ZRem (key : String) (members : List Nat)
  | HGet (key field : String)
  | HGetAll (key : String)
  | HSet (key : String) (values : List Nat)
  | HDel (key : String) (fields : List String)
  | HLen (key : String)
  | HIncrBy (key field : String) (incr : Int)
  | HKeys (key : String)
  | Exists (keys : List String)
  | HExists (key field : String)
  | Do (args : List String)
  | XInfoGroups (key : String)
  | XGroupCreate (key group start : String)
  | XGroupDelConsumer (key group consumer : String)
  | XInfoConsumers (key group : String)
  | XReadGroup (group consumer : String) (streams : List String) (count block : Int) (noAck : Bool)
  | XGroupDestroy (key group : String)
  | XLen (key : String)
  | XDel (key : String) (ids : List String)
  | ScriptRun (script : Nat) (keys : List String) (args : List Nat)
  | LRange (key : String) (start stop : Int)
  | Expire (key : String) (expiration : Int)
  | RPush (key : String) (values : List Nat)
  | FlushDB
  | FlushAll
  | PoolStats
  | XAdd (a : Nat)
  | Incr (key : String)
  | Keys (pattern : String)
deriving DecidableEq

/-- What a wrapper does after `doTracing`: the connection (`none`: the client), the context and the method it calls.
(3rd/redis/client.go:62-479) -/
def call : Op → Option Nat × Ctx × Meth
  | .txPipelined _ fn => (none, .given, .TxPipelined fn)
  | .pipelined _ fn => (none, .given, .Pipelined fn)
  | .connHGet c key field => (c, .todo, .HGet key field)
  | .get key => (none, .given, .Get key)
  | .set key val => (none, .given, .Set key val 0)
  | .del keys => (none, .given, .Del keys)
  | .setEx key value expiration => (none, .given, .SetEx key value expiration)
  | .setNx key value expiration => (none, .given, .SetNX key value expiration)
  | .sAdd key members => (none, .given, .SAdd key members)
  | .sIsMember key member => (none, .given, .SIsMember key member)
  | .sMembers key => (none, .given, .SMembers key)
  | .sRandMember key => (none, .given, .SRandMember key)
  | .sRandMemberN key count => (none, .given, .SRandMemberN key count)
  | .sPop key => (none, .given, .SPop key)
  | .sCard key => (none, .given, .SCard key)
  | .zScore key member => (none, .given, .ZScore key member)
  | .zAdd key members => (none, .given, .ZAdd key members)
  | .zRevRank key member => (none, .given, .ZRevRank key member)
  | .zRevRange key start stop => (none, .given, .ZRevRange key start stop)
  | .zCard key => (none, .given, .ZCard key)
  | .zRangeByScore key min max offset count => (none, .given, .ZRangeByScore key min max offset count)
  | .zRem key members => (none, .given, .ZRem key members)
  | .hGet key field => (none, .given, .HGet key field)
  | .hGetAll key => (none, .given, .HGetAll key)
  | .hSet key values => (none, .given, .HSet key values)
  | .hDel key fields => (none, .given, .HDel key fields)
  | .hLen key => (none, .given, .HLen key)
  | .hIncrBy key field incr => (none, .given, .HIncrBy key field incr)
  | .hKeys key => (none, .given, .HKeys key)
  | .exist key => (none, .given, .Exists [key])
  | .hExists key field => (none, .given, .HExists key field)
  | .cad key field => (none, .given, .Do ["CAD", key, field])
  | .xInfoGroups key => (none, .given, .XInfoGroups key)
  | .xGroupCreate key group start => (none, .given, .XGroupCreate key group start)
  | .xGroupDelConsumer key group consumer => (none, .given, .XGroupDelConsumer key group consumer)
  | .xInfoConsumers key group => (none, .given, .XInfoConsumers key group)
  | .xReadGroup group consumer streams count block noAck =>
    (none, .given, .XReadGroup group consumer streams count block noAck)
  | .xGroupDestroy key group => (none, .given, .XGroupDestroy key group)
  | .xLen key => (none, .given, .XLen key)
  | .xDel key id => (none, .given, .XDel key [id])
  | .scriptRun script keys args => (none, .given, .ScriptRun script keys args)
  | .scriptRunInt64s script keys args => (none, .given, .ScriptRun script keys args)
  | .lRange key start stop => (none, .given, .LRange key start stop)
  | .expire key expiration => (none, .given, .Expire key expiration)
  | .rPush key values => (none, .given, .RPush key values)
  | .flushDB => (none, .given, .FlushDB)
  | .flushAll => (none, .given, .FlushAll)
  | .poolStats => (none, .absent, .PoolStats)
  | .xAdd a => (none, .given, .XAdd a)
  | .incr key => (none, .given, .Incr key)
  | .keys pattern => (none, .given, .Keys pattern)

/-- The span tags of a wrapper: `none` if it does not call `doTracing`. (3rd/redis/client.go:62-479) -/
def tags : Op → Option (List (String × String))
  | .txPipelined origin _ => some [("TxPipelined", origin)]
  | .pipelined origin _ => some [("Pipelined", origin)]
  | .connHGet _ key _ => some [("cmd", "HGet"), ("key", key)]
  | .get key => some [("cmd", "Get"), ("key", key)]
  | .set _ _ => none
  | .del _ => some [("cmd", "Del")]
  | .setEx key _ _ => some [("cmd", "SetEx"), ("key", key)]
  | .setNx key _ _ => some [("cmd", "SetNx"), ("key", key)]
  | .sAdd key _ => some [("cmd", "SAdd"), ("key", key)]
  | .sIsMember key _ => some [("cmd", "SIsMember"), ("key", key)]
  | .sMembers key => some [("cmd", "SMembers"), ("key", key)]
  | .sRandMember key => some [("cmd", "SRandMember"), ("key", key)]
  | .sRandMemberN key _ => some [("cmd", "SRandMemberN"), ("key", key)]
  | .sPop key => some [("cmd", "SPop"), ("key", key)]
  | .sCard key => some [("cmd", "SCard"), ("key", key)]
  | .zScore key _ => some [("cmd", "ZScore"), ("key", key)]
  | .zAdd key _ => some [("cmd", "ZAdd"), ("key", key)]
  | .zRevRank key _ => some [("cmd", "ZRevRank"), ("key", key)]
  | .zRevRange key _ _ => some [("cmd", "ZRevRange"), ("key", key)]
  | .zCard key => some [("cmd", "ZCard"), ("key", key)]
  | .zRangeByScore key _ _ _ _ => some [("cmd", "ZRangeByScore"), ("key", key)]
  | .zRem key _ => some [("cmd", "ZRem"), ("key", key)]
  | .hGet key _ => some [("cmd", "HGet"), ("key", key)]
  | .hGetAll key => some [("cmd", "HGetAll"), ("key", key)]
  | .hSet key _ => some [("cmd", "HSet"), ("key", key)]
  | .hDel key _ => some [("cmd", "HDel"), ("key", key)]
  | .hLen key => some [("cmd", "HLen"), ("key", key)]
  | .hIncrBy key _ _ => some [("cmd", "HIncrBy"), ("key", key)]
  | .hKeys key => some [("cmd", "HKeys"), ("key", key)]
  | .exist key => some [("cmd", "Exists"), ("key", key)]
  | .hExists key _ => some [("cmd", "HExists"), ("key", key)]
  | .cad _ _ => none
  | .xInfoGroups key => some [("cmd", "XInfoGroups"), ("key", key)]
  | .xGroupCreate key _ _ => some [("cmd", "XGroupCreate"), ("key", key)]
  | .xGroupDelConsumer key _ _ => some [("cmd", "XGroupDelConsumer"), ("key", key)]
  | .xInfoConsumers key _ => some [("cmd", "XInfoConsumers"), ("key", key)]
  | .xReadGroup _ _ streams _ _ _ => some [("cmd", "XReadGroup"), ("key", streams.headD "")]
  | .xGroupDestroy key _ => some [("cmd", "XGroupDestroy"), ("key", key)]
  | .xLen key => some [("cmd", "XLen"), ("key", key)]
  | .xDel key _ => some [("cmd", "XDel"), ("key", key)]
  | .scriptRun _ keys _ => some [("cmd", "ScriptRun"), ("key", ",".intercalate keys)]
  | .scriptRunInt64s _ keys _ => some [("cmd", "ScriptRun"), ("key", ",".intercalate keys)]
  | .lRange key _ _ => some [("cmd", "LRange"), ("key", key)]
  | .expire key _ => some [("cmd", "Expire"), ("key", key)]
  | .rPush key _ => some [("cmd", "RPush"), ("key", key)]
  | .flushDB => some [("cmd", "FlushDB"), ("key", "")]
  | .flushAll => some [("cmd", "FlushAll"), ("key", "")]
  | .poolStats => some [("cmd", "PoolStats"), ("key", "")]
  | .xAdd _ => some [("cmd", "XAdd"), ("key", "")]
  | .incr _ => none
  | .keys pattern => some [("cmd", "Keys"), ("pattern", pattern)]

/-- What go-redis returns for a call: a value, an error, or it panics. (3rd/redis/client.go:62-479) -/
inductive Reply
  | value (x : Nat)
  | err (e : Nat)
  | panic
deriving DecidableEq

/-- What a wrapper returns: the value, an error of Redis, the error "connection is nil", a bool, or it panics.
(3rd/redis/client.go:62-479) -/
inductive Res
  | value (x : Nat)
  | err (e : Nat)
  | nilConn
  | bool (b : Bool)
  | panic
deriving DecidableEq

/-- What is seen of a wrapper. (3rd/redis/client.go:62-479) -/
inductive Ev
  /-- `doTracing` made span `f` -/
  | begin (f : Nat) (tags : List (String × String))
  | call (conn : Option Nat) (ctx : Ctx) (m : Meth)
  | finish (f : Nat)
deriving DecidableEq

/-- `doTracing`: it makes no span, whatever the tags. (3rd/redis/client_utils.go:31-33) -/
def doTracing (_tags : List (String × String)) : Option Nat := none

/-- The result for the caller. `CAD` prints an error and returns what `Bool` gave, false; the number 0 is false.
(3rd/redis/client.go:323-329) -/
def result : Op → Reply → Res
  | .cad _ _, .value x => .bool (x != 0)
  | .cad _ _, .err _ => .bool false
  | .cad _ _, .panic => .panic
  | _, .value x => .value x
  | _, .err e => .err e
  | _, .panic => .panic

/-- One call of a wrapper. `tr` is `doTracing`, `ready` says whether there is a client (`BuildClientWithOption` or
`MockClient` has been called; a method of the nil client panics), `r` is what go-redis returns. `End` is deferred, so it
also runs if the method panics. `a.Streams[0]` of `XReadGroup` is evaluated before `doTracing` is called.
(3rd/redis/client.go:62-479) -/
def run (tr : List (String × String) → Option Nat) (ready : Bool) (op : Op) (r : Reply) : List Ev × Res :=
  match op with
  | .connHGet none _ _ => ([], .nilConn)
  | .xReadGroup _ _ [] _ _ _ => ([], .panic)
  | _ =>
    let c := call op
    let body : List Ev × Res :=
      if ready ∨ c.1.isSome then ([.call c.1 c.2.1 c.2.2], result op r) else ([], .panic)
    match tags op with
    | none => body
    | some ts =>
      match tr ts with
      | none => body
      | some f => ([.begin f ts] ++ body.1 ++ [.finish f], body.2)

/-! ### What go-redis sends -/

/-- `formatSec`: whole seconds, but not 0 for a positive duration. (go-redis; used for 3rd/redis/client.go:114-121 and
421-427) -/
def formatSec (d : Int) : Int := if 0 < d ∧ d < 1000000000 then 1 else d.tdiv 1000000000

/-- `formatMs`. (go-redis; used for 3rd/redis/client.go:123-129) -/
def formatMs (d : Int) : Int := if 0 < d ∧ d < 1000000 then 1 else d.tdiv 1000000

/-- `usePrecise`. (go-redis; used for 3rd/redis/client.go:123-129) -/
def usePrecise (d : Int) : Bool := d < 1000000000 || d.tmod 1000000000 != 0

/-- The command that go-redis sends for a method; `none` for those that send no command of their own.
(go-redis; used for 3rd/redis/client.go:62-479) -/
def sent : Meth → Option (List Word)
  | .TxPipelined _ => none
  | .Pipelined _ => none
  | .Get key => some [.s "get", .s key]
  | .Set key val d =>
    some ([.s "set", .s key, .s val] ++
      (if 0 < d then if usePrecise d then [.s "px", .n (formatMs d)] else [.s "ex", .n (formatSec d)]
        else if d = -1 then [.s "keepttl"] else []))
  | .Del keys => some (.s "del" :: keys.map .s)
  | .SetEx key value d => some [.s "setex", .s key, .n (formatSec d), .v value]
  | .SetNX key value d =>
    some (if d = 0 then [.s "setnx", .s key, .v value]
      else if d = -1 then [.s "set", .s key, .v value, .s "keepttl", .s "nx"]
      else if usePrecise d then [.s "set", .s key, .v value, .s "px", .n (formatMs d), .s "nx"]
      else [.s "set", .s key, .v value, .s "ex", .n (formatSec d), .s "nx"])
  | .SAdd key members => some ([.s "sadd", .s key] ++ members.map .v)
  | .SIsMember key member => some [.s "sismember", .s key, .v member]
  | .SMembers key => some [.s "smembers", .s key]
  | .SRandMember key => some [.s "srandmember", .s key]
  | .SRandMemberN key count => some [.s "srandmember", .s key, .n count]
  | .SPop key => some [.s "spop", .s key]
  | .SCard key => some [.s "scard", .s key]
  | .ZScore key member => some [.s "zscore", .s key, .s member]
  | .ZAdd key members => some ([.s "zadd", .s key] ++ members.map .v)
  | .ZRevRank key member => some [.s "zrevrank", .s key, .s member]
  | .ZRevRange key start stop => some [.s "zrevrange", .s key, .n start, .n stop]
  | .ZCard key => some [.s "zcard", .s key]
  | .ZRangeByScore key min max offset count =>
    some ([.s "zrangebyscore", .s key, .s min, .s max] ++
      (if offset ≠ 0 ∨ count ≠ 0 then [.s "limit", .n offset, .n count] else []))
  | .ZRem key members => some ([.s "zrem", .s key] ++ members.map .v)
  | .HGet key field => some [.s "hget", .s key, .s field]
  | .HGetAll key => some [.s "hgetall", .s key]
  | .HSet key values => some ([.s "hset", .s key] ++ values.map .v)
  | .HDel key fields => some ([.s "hdel", .s key] ++ fields.map .s)
  | .HLen key => some [.s "hlen", .s key]
  | .HIncrBy key field incr => some [.s "hincrby", .s key, .s field, .n incr]
  | .HKeys key => some [.s "hkeys", .s key]
  | .Exists keys => some (.s "exists" :: keys.map .s)
  | .HExists key field => some [.s "hexists", .s key, .s field]
  | .Do args => some (args.map .s)
  | .XInfoGroups key => some [.s "xinfo", .s "groups", .s key]
  | .XGroupCreate key group start => some [.s "xgroup", .s "create", .s key, .s group, .s start]
  | .XGroupDelConsumer key group consumer => some [.s "xgroup", .s "delconsumer", .s key, .s group, .s consumer]
  | .XInfoConsumers key group => some [.s "xinfo", .s "consumers", .s key, .s group]
  | .XReadGroup group consumer streams count block noAck =>
    some ([.s "xreadgroup", .s "group", .s group, .s consumer] ++
      (if 0 < count then [.s "count", .n count] else []) ++
      (if 0 ≤ block then [.s "block", .n (block.tdiv 1000000)] else []) ++
      (if noAck then [.s "noack"] else []) ++ .s "streams" :: streams.map .s)
  | .XGroupDestroy key group => some [.s "xgroup", .s "destroy", .s key, .s group]
  | .XLen key => some [.s "xlen", .s key]
  | .XDel key ids => some ([.s "xdel", .s key] ++ ids.map .s)
  | .ScriptRun script keys args =>
    some ([.s "evalsha", .v script, .n keys.length] ++ keys.map .s ++ args.map .v)
  | .LRange key start stop => some [.s "lrange", .s key, .n start, .n stop]
  | .Expire key d => some [.s "expire", .s key, .n (formatSec d)]
  | .RPush key values => some ([.s "rpush", .s key] ++ values.map .v)
  | .FlushDB => some [.s "flushdb"]
  | .FlushAll => some [.s "flushall"]
  | .PoolStats => none
  | .XAdd a => some [.s "xadd", .v a]
  | .Incr key => some [.s "incr", .s key]
  | .Keys pattern => some [.s "keys", .s pattern]

end Braid.RedisOps
