import Verif.Redis.Model

/-
What the Redis helpers should do (C72, C76).
-/
namespace Braid.Redis

/-- **C72**: all values in order if every command succeeded, an error if any failed. -/
def Reports (cs : List Cmd) (r : Res) : Prop :=
  (∀ vs : List (List UInt8), cs = vs.map .str → r = .ret vs none) ∧
  ((∃ e, Cmd.err e ∈ cs) → ∃ bts e, r = .ret bts (some e))

/-- The setting an option stands for: the value of which field. -/
def means (parse : Parse) : Opt → Field → Option Nat
  | .withAddr url, f => (parse url).bind (· f)
  | .withDomain v, .addr => some v
  | .withUsername v, .username => some v
  | .withPassword v, .password => some v
  | .withReadTimeOut v, .readTimeout => some v
  | .withWriteTimeOut v, .writeTimeout => some v
  | .withConnectTimeOut v, .dialTimeout => some v
  | .withIdleTimeout v, .connMaxIdleTime => some v
  | .withMaxIdle v, .maxIdle => some v
  | .withMinIdle v, .minIdle => some v
  | .withPoolSize v, .poolSize => some v
  | .withPoolTimeout v, .poolTimeout => some v
  | .withTracer v, .tracer => some v
  | _, _ => none

/-- **C76**, effect: every setting that only one option gives is in the client, whatever the order. -/
def Effective (parse : Parse) (opts : List Opt) (c : Conf) : Prop :=
  ∀ a o b f v, opts = a ++ o :: b → means parse o f = some v → (∀ o' ∈ a ++ b, means parse o' f = none) → c f = v

/-- The default of a setting: 10 seconds to read and to write, 128 idle connections in a pool of 1024, and the zero value
for all others. -/
def defaultOf (f : Field) : Nat :=
  if f = .readTimeout ∨ f = .writeTimeout then 10 else if f = .minIdle then 128 else if f = .poolSize then 2 ^ 10 else 0

/-- **C76**, independence: a setting no option gives has its default. -/
def Independent (parse : Parse) (opts : List Opt) (c : Conf) : Prop :=
  ∀ f, (∀ o ∈ opts, means parse o f = none) → c f = defaultOf f

/-- A URL. -/
def Opt.isUrl : Opt → Bool
  | .withAddr _ => true
  | _ => false

/-- URLs have no field for the tracer. -/
def Lawful (parse : Parse) : Prop := ∀ u p, parse u = some p → p .tracer = none

end Braid.Redis
