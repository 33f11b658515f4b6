import Verif.RedisOps.Model

/-
Specification of the wrappers in the terms of Redis: the commands as its manual has them, and how long keys live.
-/
namespace Braid.RedisOps.Spec

/-- The text of words. -/
def texts (l : List String) : List Word := l.map .s

/-- The command that an operation stands for, without an expiration; `none`: it stands for no single command, or the
command has an expiration. -/
def command : Op → Option (List Word)
  | .connHGet _ k f => some (texts ["hget", k, f])
  | .get k => some (texts ["get", k])
  | .set k x => some (texts ["set", k, x])
  | .del ks => some (texts ("del" :: ks))
  | .sAdd k ms => some (texts ["sadd", k] ++ ms.map .v)
  | .sIsMember k m => some (texts ["sismember", k] ++ [.v m])
  | .sMembers k => some (texts ["smembers", k])
  | .sRandMember k => some (texts ["srandmember", k])
  | .sRandMemberN k n => some (texts ["srandmember", k] ++ [.n n])
  | .sPop k => some (texts ["spop", k])
  | .sCard k => some (texts ["scard", k])
  | .zScore k m => some (texts ["zscore", k, m])
  | .zAdd k ms => some (texts ["zadd", k] ++ ms.map .v)
  | .zRevRank k m => some (texts ["zrevrank", k, m])
  | .zRevRange k i j => some (texts ["zrevrange", k] ++ [.n i, .n j])
  | .zCard k => some (texts ["zcard", k])
  | .zRangeByScore k lo hi o c =>
    some (texts ["zrangebyscore", k, lo, hi] ++ if o = 0 ∧ c = 0 then [] else [.s "limit", .n o, .n c])
  | .zRem k ms => some (texts ["zrem", k] ++ ms.map .v)
  | .hGet k f => some (texts ["hget", k, f])
  | .hGetAll k => some (texts ["hgetall", k])
  | .hSet k vs => some (texts ["hset", k] ++ vs.map .v)
  | .hDel k fs => some (texts ("hdel" :: k :: fs))
  | .hLen k => some (texts ["hlen", k])
  | .hIncrBy k f n => some (texts ["hincrby", k, f] ++ [.n n])
  | .hKeys k => some (texts ["hkeys", k])
  | .exist k => some (texts ["exists", k])
  | .hExists k f => some (texts ["hexists", k, f])
  | .cad k f => some (texts ["CAD", k, f])
  | .xInfoGroups k => some (texts ["xinfo", "groups", k])
  | .xGroupCreate k g i => some (texts ["xgroup", "create", k, g, i])
  | .xGroupDelConsumer k g c => some (texts ["xgroup", "delconsumer", k, g, c])
  | .xInfoConsumers k g => some (texts ["xinfo", "consumers", k, g])
  | .xReadGroup g c ss n b a =>
    some (texts ["xreadgroup", "group", g, c] ++ (if n ≤ 0 then [] else [.s "count", .n n]) ++
      (if b < 0 then [] else [.s "block", .n (b / 1000000)]) ++ texts (if a then ["noack"] else []) ++ texts ("streams" :: ss))
  | .xGroupDestroy k g => some (texts ["xgroup", "destroy", k, g])
  | .xLen k => some (texts ["xlen", k])
  | .xDel k i => some (texts ["xdel", k, i])
  | .scriptRun s ks xs => some ([.s "evalsha", .v s, .n ks.length] ++ texts ks ++ xs.map .v)
  | .scriptRunInt64s s ks xs => some ([.s "evalsha", .v s, .n ks.length] ++ texts ks ++ xs.map .v)
  | .lRange k i j => some (texts ["lrange", k] ++ [.n i, .n j])
  | .rPush k vs => some (texts ["rpush", k] ++ vs.map .v)
  | .flushDB => some (texts ["flushdb"])
  | .flushAll => some (texts ["flushall"])
  | .xAdd a => some [.s "xadd", .v a]
  | .incr k => some (texts ["incr", k])
  | .keys p => some (texts ["keys", p])
  | _ => none

/-- The operations that give a key a time to live. -/
inductive Expiring : Op → String → Int → Prop
  | setEx (k : String) (v : Nat) (d : Int) : Expiring (.setEx k v d) k d
  | setNx (k : String) (v : Nat) (d : Int) : Expiring (.setNx k v d) k d
  | expire (k : String) (d : Int) : Expiring (.expire k d) k d

/-- Specification of what commands with an expiration do: the command gives key `k` a life of `t` nanoseconds, and if
`v` is there, sets this value, with `nx` only if the key is not there. (Redis: SETEX and EXPIRE in seconds, EX in
seconds, PX in milliseconds.) -/
inductive Lives : List Word → String → Option Nat → Bool → Int → Prop
  | setex (k : String) (v : Nat) (n : Int) : Lives [.s "setex", .s k, .n n, .v v] k (some v) false (n * 1000000000)
  | ex (k : String) (v : Nat) (n : Int) : Lives [.s "set", .s k, .v v, .s "ex", .n n, .s "nx"] k (some v) true (n * 1000000000)
  | px (k : String) (v : Nat) (n : Int) : Lives [.s "set", .s k, .v v, .s "px", .n n, .s "nx"] k (some v) true (n * 1000000)
  | expire (k : String) (n : Int) : Lives [.s "expire", .s k, .n n] k none false (n * 1000000000)

/-- The value that an expiring operation sets, and whether only if the key is not there. -/
def sets : Op → Option Nat × Bool
  | .setEx _ v _ => (some v, false)
  | .setNx _ v _ => (some v, true)
  | _ => (none, false)

/-- The calls among events. -/
def calls (evs : List Ev) : List (Option Nat × Ctx × Meth) :=
  evs.filterMap fun | .call c x m => some (c, x, m) | _ => none

/-- The key an operation is about. -/
def keyOf : Op → Option String
  | .connHGet _ k _ | .get k | .set k _ | .setEx k _ _ | .setNx k _ _ | .sAdd k _ | .sIsMember k _ | .sMembers k
  | .sRandMember k | .sRandMemberN k _ | .sPop k | .sCard k | .zScore k _ | .zAdd k _ | .zRevRank k _
  | .zRevRange k _ _ | .zCard k | .zRangeByScore k _ _ _ _ | .zRem k _ | .hGet k _ | .hGetAll k | .hSet k _ | .hDel k _
  | .hLen k | .hIncrBy k _ _ | .hKeys k | .exist k | .hExists k _ | .cad k _ | .xInfoGroups k | .xGroupCreate k _ _
  | .xGroupDelConsumer k _ _ | .xInfoConsumers k _ | .xGroupDestroy k _ | .xLen k | .xDel k _ | .lRange k _ _
  | .expire k _ | .rPush k _ | .incr k => some k
  | .del [k] => some k
  | .xReadGroup _ _ [k] _ _ _ => some k
  | .scriptRun _ [k] _ => some k
  | .scriptRunInt64s _ [k] _ => some k
  | _ => none

/-- The operation is traced: a span is begun before the call and ended after it, and nothing else happens. -/
def Traced (evs : List Ev) : Prop := ∃ f ts cs, evs = .begin f ts :: cs ++ [.finish f] ∧ ∀ e ∈ cs, ∃ c x m, e = .call c x m

/-- A name is that of a command: its first words, in any letters. -/
def Names (n : String) (w : List Word) : Prop := ∃ ws rest, ws ≠ [] ∧ w = texts ws ++ rest ∧ n.toLower = String.join ws

end Braid.RedisOps.Spec
