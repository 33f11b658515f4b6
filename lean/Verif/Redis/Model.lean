import Verif.Lib.Lts

/-
Model of `3rd/redis/client_utils.go` `GetCmdsByteSlice`, and of `3rd/redis/client.go` `BuildClientWithOption` with
the options in `3rd/redis/client_opt.go`.

Simplifications: the values of options are numbers, 0 being the zero value; the defaults that `redis.NewClient`
(go-redis v9.6.1) puts in the place of zero values are left out. `redis.ParseURL` is a parameter: it fails or gives
values to some fields, and leaves all others zero. `redis.NewClient(opt)` copies the sizes and times into the pool of
the client, but keeps the pointer `opt` and reads `opt.Addr` whenever the pool opens a connection.
-/
namespace Braid.Redis

/-- The result of a command: a string or an error, or a command that is no `*redis.StringCmd`.
(3rd/redis/client_utils.go:11-24) -/
inductive Cmd
  | str (b : List UInt8)
  | err (e : Nat)
  | other
deriving DecidableEq

/-- What a function returns; it may panic. (3rd/redis/client_utils.go:11-24) -/
inductive Res
  | ret (bts : List (List UInt8)) (err : Option Nat)
  | panic
deriving DecidableEq

/-- `client_utils.go` L14-21: the loop, with `bts` so far. L16 declares a new `err`, so the one returned in L23 is
always nil. (3rd/redis/client_utils.go:14-21) -/
def cmdsLoop (bts : List (List UInt8)) : List Cmd → Res
  | [] => .ret bts none
  | .str b :: cs => cmdsLoop (bts ++ [b]) cs
  | .err _ :: _ => .ret bts none
  | .other :: _ => .panic

/-- `client_utils.go` L11-24. (3rd/redis/client_utils.go:11-24) -/
def getCmdsByteSlice (cs : List Cmd) : Res := cmdsLoop [] cs

/-- The fields of `redis.Options` that options set, the tracer, and `DialTimeout`. (3rd/redis/client_opt.go:11-14) -/
inductive Field
  | addr | username | password | readTimeout | writeTimeout | connMaxLifetime | connMaxIdleTime | maxIdle | minIdle
  | poolSize | poolTimeout | tracer | dialTimeout
deriving DecidableEq

/-- `client_opt.go` L10-14 `Parm`. (3rd/redis/client_opt.go:10-14) -/
abbrev Conf := Field → Nat

/-- The options. (3rd/redis/client_opt.go:20-107) -/
inductive Opt
  | withAddr (url : Nat)
  | withDomain (v : Nat)
  | withUsername (v : Nat)
  | withPassword (v : Nat)
  | withReadTimeOut (v : Nat)
  | withWriteTimeOut (v : Nat)
  | withConnectTimeOut (v : Nat)
  | withIdleTimeout (v : Nat)
  | withMaxIdle (v : Nat)
  | withMinIdle (v : Nat)
  | withPoolSize (v : Nat)
  | withPoolTimeout (v : Nat)
  | withTracer (v : Nat)
deriving DecidableEq

/-- `redis.ParseURL`: an error, or the fields given in the URL. (3rd/redis/client_opt.go:20-28) -/
abbrev Parse := Nat → Option (Field → Option Nat)

/-- `client_opt.go` L20-107: one option; `none` is a panic. The URL replaces all of `redisopt`, but not the tracer.
(3rd/redis/client_opt.go:20-107) -/
def apply (parse : Parse) (c : Conf) : Opt → Option Conf
  | .withAddr url => (parse url).map fun p f => if f = .tracer then c .tracer else (p f).getD 0
  | .withDomain v => some (upd c .addr v)
  | .withUsername v => some (upd c .username v)
  | .withPassword v => some (upd c .password v)
  | .withReadTimeOut v => some (upd c .readTimeout v)
  | .withWriteTimeOut v => some (upd c .writeTimeout v)
  | .withConnectTimeOut v => some (upd c .connMaxLifetime v)
  | .withIdleTimeout v => some (upd c .connMaxIdleTime v)
  | .withMaxIdle v => some (upd c .maxIdle v)
  | .withMinIdle v => some (upd c .minIdle v)
  | .withPoolSize v => some (upd c .poolSize v)
  | .withPoolTimeout v => some (upd c .poolTimeout v)
  | .withTracer v => some (upd c .tracer v)

/-- `client.go` L28-30: all options; the configuration reached, and whether no option panicked.
(3rd/redis/client.go:28-30) -/
def applyAll (parse : Parse) (c : Conf) : List Opt → Conf × Bool
  | [] => (c, true)
  | o :: os => match apply parse c o with
    | some c' => applyAll parse c' os
    | none => (c, false)

/-- `client.go` L15-22: `defaultClientConfig`; times in seconds. (3rd/redis/client.go:15-22) -/
def defaults : Conf := fun f => match f with
  | .readTimeout => 10
  | .writeTimeout => 10
  | .minIdle => 128
  | .poolSize => 1024
  | _ => 0

/-- The package: `defaultClientConfig` (L14-22), and the settings each client built so far has copied.
(3rd/redis/client.go:14-22) -/
structure State where
  conf : Conf
  clients : List Conf

/-- `client.go` L26-48: `ping` tells whether the server answers; if not, or if an option panics, there is no client
(`none`), but what the options changed remains. (3rd/redis/client.go:26-48) -/
def build (parse : Parse) (s : State) (opts : List Opt) (ping : Bool) : State × Option Conf :=
  if (applyAll parse s.conf opts).2 = true then
    if ping then
      ({ conf := (applyAll parse s.conf opts).1, clients := s.clients ++ [(applyAll parse s.conf opts).1] },
        some (applyAll parse s.conf opts).1)
    else ({ s with conf := (applyAll parse s.conf opts).1 }, none)
  else ({ s with conf := (applyAll parse s.conf opts).1 }, none)

/-- The address to which client `i` opens new connections: that of `defaultClientConfig`, to which it has the
pointer. (3rd/redis/client.go:33-44) -/
def dials (s : State) (i : Nat) : Option Nat := if i < s.clients.length then some (s.conf .addr) else none

/-- The default options. (3rd/redis/client.go:13-23) -/
def init : State := ⟨defaults, []⟩

/-- Several builds. (3rd/redis/client.go:25-44) -/
def builds (parse : Parse) (s : State) : List (List Opt × Bool) → State
  | [] => s
  | (o, p) :: r => builds parse (build parse s o p).1 r

end Braid.Redis
