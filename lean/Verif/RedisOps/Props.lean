import Verif.RedisOps.Spec

/-
C105: a wrapper of a Redis command sends this command and returns what it gives.
C106: Redis operations are traced.
-/
namespace Braid.RedisOps
open Spec

/-- An operation that neither has a nil connection nor reads from no stream. -/
def Proper : Op → Prop
  | .connHGet none _ _ => False
  | .xReadGroup _ _ [] _ _ _ => False
  | _ => True

/-- C105, the full statement: with a client, an operation calls one method, with the caller's context; the
command sent is the one meant; and the caller gets the value or the error. -/
def Faithful : Prop :=
  ∀ tr op r, ∃ c x m, calls (run tr true op r).1 = [(c, x, m)] ∧ x = .given ∧
    (∀ w, command op = some w → sent m = some w) ∧
    (∀ k d, Expiring op k d → 0 < d → ∃ w, sent m = some w ∧ Lives w k (sets op).1 (sets op).2 d) ∧
    (∀ e, r = .err e → (run tr true op r).2 = .err e)

theorem run_proper {op : Op} (hp : Proper op) (tr : List (String × String) → Option Nat) (ready : Bool) (r : Reply) :
    run tr ready op r =
      let body : List Ev × Res :=
        if ready ∨ (call op).1.isSome then ([.call (call op).1 (call op).2.1 (call op).2.2], result op r) else ([], .panic)
      match (tags op).bind tr with
      | none => body
      | some f => ([.begin f ((tags op).getD [])] ++ body.1 ++ [.finish f], body.2) := by
  unfold run
  split
  · exact hp.elim
  · exact hp.elim
  · cases ht : tags op with
    | none => simp
    | some ts => simp only [Option.bind_some, Option.getD_some]; cases tr ts <;> rfl

theorem calls_run {op : Op} (hp : Proper op) (tr : List (String × String) → Option Nat) (r : Reply) :
    calls (run tr true op r).1 = [call op] ∧ (run tr true op r).2 = result op r := by
  rw [run_proper hp]
  cases (tags op).bind tr <;> simp [calls]

theorem command_sent {op : Op} {w : List Word} (h : command op = some w) : sent (call op).2.2 = some w := by
  cases op <;> simp only [command, Option.some.injEq, reduceCtorEq] at h <;> subst h <;>
    simp [call, sent, texts]
  · rename_i o c
    by_cases h1 : o = 0 <;> by_cases h2 : c = 0 <;> simp [h1, h2]
  · rename_i n b a
    have e1 : (if n ≤ 0 then ([] : List Word) else [.s "count", .n n]) = if 0 < n then [.s "count", .n n] else [] := by
      split <;> split <;> first | rfl | omega
    have e2 : (if b < 0 then ([] : List Word) else [.s "block", .n (b / 1000000)]) =
        if 0 ≤ b then [.s "block", .n (b.tdiv 1000000)] else [] := by
      split <;> split <;> first | rfl | omega | (rw [Int.tdiv_eq_ediv_of_nonneg (by omega)])
    rw [e1, e2]
    cases a <;> rfl

/-- C105 (partial): with a client, every operation calls exactly one method, which sends the command of that name with the
arguments in their order, and the caller gets what the method gives; tracing makes no difference. Missing from the full
statement: `ConnHGet` has another context and `PoolStats` none; `CAD` hides errors; a nil connection, and `XReadGroup`
without streams; expirations are below. -/
theorem C105_call_partial {op : Op} (hp : Proper op) (tr : List (String × String) → Option Nat) (r : Reply) :
    ∃ c x m, calls (run tr true op r).1 = [(c, x, m)] ∧
      (x = .given ↔ (∀ c k f, op ≠ .connHGet c k f) ∧ op ≠ .poolStats) ∧
      (∀ c', c = some c' ↔ ∃ k f, op = .connHGet (some c') k f) ∧
      (∀ w, command op = some w → sent m = some w) ∧
      (∀ e, r = .err e → ((run tr true op r).2 = .err e ↔ ∀ k f, op ≠ .cad k f)) ∧
      (∀ v, r = .value v → (run tr true op r).2 = .value v ∨ ∃ k f, op = .cad k f ∧ (run tr true op r).2 = .bool (v != 0)) ∧
      (r = .panic → (run tr true op r).2 = .panic) := by
  obtain ⟨h1, h2⟩ := calls_run hp tr r
  refine ⟨(call op).1, (call op).2.1, (call op).2.2, h1, ?_, ?_, fun w => command_sent, ?_, ?_, ?_⟩
  · cases op <;> simp [call]
  · intro c'
    cases op <;> simp [call]
  · rintro e rfl
    rw [h2]
    cases op <;> simp [result]
  · rintro v rfl
    rw [h2]
    cases op <;> simp [result]
  · rintro rfl
    rw [h2]
    cases op <;> rfl

/-- C105 is violated: `ConnHGet` does not pass on the context of its caller, so a deadline has no effect. -/
theorem C105_context_refuted (tr : List (String × String) → Option Nat) (ready : Bool) (c : Nat) (k f : String) (r : Reply) :
    calls (run tr ready (.connHGet (some c) k f) r).1 = [(some c, .todo, .HGet k f)] := by
  rw [run_proper (by trivial)]
  cases (tags (.connHGet (some c) k f)).bind tr <;> simp [calls, call]

/-- C105 is violated: a failed `CAD` returns the same as one that found another value. -/
theorem C105_cad_refuted (tr : List (String × String) → Option Nat) (k f : String) (e : Nat) :
    run tr true (.cad k f) (.err e) = ([.call none .given (.Do ["CAD", k, f])], .bool false) ∧
      (run tr true (.cad k f) (.err e)).2 = (run tr true (.cad k f) (.value 0)).2 := ⟨rfl, rfl⟩

/-- C105 is violated: `XReadGroup` without streams panics, where go-redis would report the error of Redis. -/
theorem C105_streams_refuted (tr : List (String × String) → Option Nat) (ready : Bool) (g c : String) (n b : Int) (a : Bool)
    (r : Reply) : run tr ready (.xReadGroup g c [] n b a) r = ([], .panic) := rfl

/-- C105 is violated: the full statement does not hold. -/
theorem C105_refuted : ¬ Faithful := by
  intro h
  obtain ⟨c, x, m, h1, h2, -⟩ := h (fun _ => none) (.connHGet (some 1) "k" "f") (.value 7)
  rw [C105_context_refuted] at h1
  cases h1
  cases h2

/-- C105: without a client, exactly the operations on a connection call anything; all others panic, but for a nil
connection, which is reported. -/
theorem C105_no_client {op : Op} (hp : Proper op) (tr : List (String × String) → Option Nat) (r : Reply) :
    (calls (run tr false op r).1 = [] ∧ (run tr false op r).2 = .panic) ∨
      ∃ c k f, op = .connHGet (some c) k f ∧ run tr false op r = run tr true op r := by
  by_cases h : ∃ c, (call op).1 = some c
  · obtain ⟨c, h⟩ := h
    right
    refine ⟨c, ?_⟩
    have : ∃ k f, op = .connHGet (some c) k f := by
      cases op <;> simp [call] at h
      subst h
      exact ⟨_, _, rfl⟩
    obtain ⟨k, f, rfl⟩ := this
    refine ⟨k, f, rfl, ?_⟩
    rw [run_proper hp, run_proper hp]
    simp [call]
  · left
    have hn : (call op).1 = none := by
      cases hc : (call op).1 with
      | none => rfl
      | some c => exact absurd ⟨c, hc⟩ h
    rw [run_proper hp, hn]
    cases (tags op).bind tr <;> simp [calls]

/-- C105: a nil connection is reported, and nothing is called. -/
theorem C105_nil_conn (tr : List (String × String) → Option Nat) (ready : Bool) (k f : String) (r : Reply) :
    run tr ready (.connHGet none k f) r = ([], .nilConn) := rfl

theorem tdiv_sec {d : Int} (h : 0 < d) : d.tdiv 1000000000 = d / 1000000000 := Int.tdiv_eq_ediv_of_nonneg (by omega)
theorem tdiv_ms {d : Int} (h : 0 < d) : d.tdiv 1000000 = d / 1000000 := Int.tdiv_eq_ediv_of_nonneg (by omega)
theorem tmod_sec {d : Int} (h : 0 < d) : d.tmod 1000000000 = d % 1000000000 := Int.tmod_eq_emod_of_nonneg (by omega)

/-- C105, expirations, exactly: the life that the command asks for. `SetEx` and `Expire` count whole seconds, and at least
one; `SetNx` whole milliseconds, and at least one. -/
theorem C105_life {op : Op} {k : String} {d : Int} (he : Expiring op k d) (hd : 0 < d) :
    ∃ w, sent (call op).2.2 = some w ∧ ∃ t, Lives w k (sets op).1 (sets op).2 t ∧
      t = (if (sets op).2 then max 1 (d / 1000000) * 1000000 else max 1 (d / 1000000000) * 1000000000) := by
  cases he with
  | setEx k v d =>
    refine ⟨_, rfl, _, .setex k v (formatSec d), ?_⟩
    simp only [sets, formatSec, tdiv_sec hd, Bool.false_eq_true, if_false]
    congr 1
    split <;> omega
  | setNx k v d =>
    simp only [call, sent, sets, if_true, if_neg (show d ≠ 0 by omega), if_neg (show d ≠ -1 by omega)]
    by_cases hu : usePrecise d = true
    · rw [if_pos hu]
      refine ⟨_, rfl, _, .px k v (formatMs d), ?_⟩
      simp only [formatMs, tdiv_ms hd]
      congr 1
      split <;> omega
    · rw [if_neg hu]
      refine ⟨_, rfl, _, .ex k v (formatSec d), ?_⟩
      simp only [usePrecise, Bool.or_eq_true, decide_eq_true_eq, bne_iff_ne, tmod_sec hd] at hu
      simp only [formatSec, tdiv_sec hd]
      split <;> omega
  | expire k d =>
    refine ⟨_, rfl, _, .expire k (formatSec d), ?_⟩
    simp only [sets, formatSec, tdiv_sec hd, Bool.false_eq_true, if_false]
    congr 1
    split <;> omega

theorem lives_unique {w : List Word} {k k' : String} {v v' : Option Nat} {b b' : Bool} {t t' : Int}
    (h : Lives w k v b t) (h' : Lives w k' v' b' t') : t = t' := by
  generalize e : w = w' at h'
  cases h <;> cases h' <;> simp at e <;> omega

/-- C105, expirations (partial): a key lives as long as the caller says iff this is a number of whole seconds (for `SetNx`,
of whole milliseconds). Missing from the full statement: other durations. -/
theorem C105_life_partial {op : Op} {k : String} {d : Int} (he : Expiring op k d) (hd : 0 < d) :
    (∃ w, sent (call op).2.2 = some w ∧ Lives w k (sets op).1 (sets op).2 d) ↔
      (if (sets op).2 then 1000000 ∣ d else 1000000000 ∣ d) := by
  obtain ⟨w, hw, t, hl, ht⟩ := C105_life he hd
  constructor
  · rintro ⟨w', hw', hl'⟩
    rw [hw] at hw'
    cases hw'
    have := lives_unique hl hl'
    split at ht <;> rename_i hs <;> simp only [hs, if_true, Bool.false_eq_true, if_false] <;> omega
  · intro h
    refine ⟨w, hw, ?_⟩
    have : t = d := by
      split at ht <;> rename_i hs <;> simp only [hs, if_true, Bool.false_eq_true, if_false] at h <;> omega
    rw [← this]
    exact hl

/-- C105 is violated: of one and a half seconds, `SetEx` and `Expire` keep one, and half a second becomes one. -/
theorem C105_life_refuted :
    sent (call (.setEx "k" 7 1500000000)).2.2 = some [.s "setex", .s "k", .n 1, .v 7] ∧
    sent (call (.expire "k" 1500000000)).2.2 = some [.s "expire", .s "k", .n 1] ∧
    sent (call (.expire "k" 500000000)).2.2 = some [.s "expire", .s "k", .n 1] := ⟨rfl, rfl, rfl⟩

example : sent (call (.setNx "k" 7 1500000000)).2.2 = some [.s "set", .s "k", .v 7, .s "px", .n 1500, .s "nx"] ∧
    run (fun _ => some 3) true (.hGet "k" "f") (.value 9) =
      ([.begin 3 [("cmd", "HGet"), ("key", "k")], .call none .given (.HGet "k" "f"), .finish 3], .value 9) := ⟨rfl, rfl⟩

/-- C106, the full statement: every operation is traced. -/
def AllTraced : Prop := ∀ op r, Traced (run doTracing true op r).1

/-- C106 is violated by every operation: no span is ever made. -/
theorem C106_never_refuted (ready : Bool) (op : Op) (r : Reply) : ¬ Traced (run doTracing ready op r).1 := by
  have : (run doTracing ready op r).1 =
      (calls (run doTracing ready op r).1).map fun c => Ev.call c.1 c.2.1 c.2.2 := by
    unfold run
    split
    · rfl
    · rfl
    · simp only [doTracing]
      cases tags op <;> dsimp only <;> split <;> rfl
  rintro ⟨f, ts, cs, h, -⟩
  rw [this] at h
  cases hc : calls (run doTracing ready op r).1 <;> simp [hc] at h

theorem C106_refuted : ¬ AllTraced := fun h => C106_never_refuted true (.get "k") (.value 1) (h _ _)

/-- C106 (partial): were spans made, every operation but `Set`, `Incr` and `CAD` would be traced, also if it panics in the
client. Missing from the full statement: that spans are made; these three. -/
theorem C106_traced_partial {op : Op} (hp : Proper op) {tr : List (String × String) → Option Nat}
    (ht : ∀ ts, (tr ts).isSome) (ready : Bool) (r : Reply) :
    Traced (run tr ready op r).1 ↔ (∀ k v, op ≠ .set k v) ∧ (∀ k, op ≠ .incr k) ∧ ∀ k f, op ≠ .cad k f := by
  rw [run_proper hp]
  constructor
  · intro h
    have : tags op ≠ none := by
      intro e
      simp only [e, Option.bind_none] at h
      obtain ⟨f, ts, cs, h, -⟩ := h
      split at h <;> simp at h
    refine ⟨?_, ?_, ?_⟩
    · rintro k v rfl; exact this rfl
    · rintro k rfl; exact this rfl
    · rintro k f rfl; exact this rfl
  · rintro ⟨h1, h2, h3⟩
    have : ∃ ts, tags op = some ts := by
      cases op <;> first | exact ⟨_, rfl⟩ | exact absurd rfl (h1 _ _) | exact absurd rfl (h2 _) | exact absurd rfl (h3 _ _)
    obtain ⟨ts, e⟩ := this
    obtain ⟨f, hf⟩ := Option.isSome_iff_exists.1 (ht ts)
    simp only [e, Option.bind_some, hf, Option.getD_some]
    split
    · exact ⟨f, ts, [.call (call op).1 (call op).2.1 (call op).2.2], rfl, by simp⟩
    · exact ⟨f, ts, [], rfl, by simp⟩

/-- C106: were spans made, they would show the key of the operation, if it has one and is no `Del`. -/
theorem C106_key {op : Op} {k : String} (hk : keyOf op = some k) {ts : List (String × String)} (ht : tags op = some ts) :
    ("key", k) ∈ ts ∨ op = .del [k] := by
  unfold keyOf at hk
  split at hk <;> simp only [Option.some.injEq, reduceCtorEq] at hk <;> subst hk <;>
    simp only [tags, Option.some.injEq, reduceCtorEq] at ht <;> first | (subst ht; simp; done) | skip

/-- C106: were spans made, they would show the name of the command, but for scripts and `SRandMemberN`. -/
theorem C106_name {op : Op} {n : String} {w : List Word} {ts : List (String × String)} (ht : tags op = some ts)
    (hn : ("cmd", n) ∈ ts) (hw : command op = some w) :
    Names n w ∨ (∃ k i, op = .sRandMemberN k i) ∨ ∃ s ks xs, op = .scriptRun s ks xs ∨ op = .scriptRunInt64s s ks xs := by
  cases op <;> simp only [tags, command, reduceCtorEq, Option.some.injEq] at ht hw <;> subst ht hw <;>
    simp only [List.mem_cons, List.not_mem_nil, or_false, Prod.mk.injEq, true_and, show ("cmd" = "key") = False by decide,
      show ("cmd" = "pattern") = False by decide, false_and] at hn <;> subst hn
  case sRandMemberN k i => exact .inr (.inl ⟨k, i, rfl⟩)
  case scriptRun s ks xs => exact .inr (.inr ⟨s, ks, xs, .inl rfl⟩)
  case scriptRunInt64s s ks xs => exact .inr (.inr ⟨s, ks, xs, .inr rfl⟩)
  case xInfoGroups k => exact .inl ⟨["xinfo", "groups"], _, by simp, rfl, by decide +kernel⟩
  case xGroupCreate k g i => exact .inl ⟨["xgroup", "create"], _, by simp, rfl, by decide +kernel⟩
  case xGroupDelConsumer k g c => exact .inl ⟨["xgroup", "delconsumer"], _, by simp, rfl, by decide +kernel⟩
  case xInfoConsumers k g => exact .inl ⟨["xinfo", "consumers"], _, by simp, rfl, by decide +kernel⟩
  case xGroupDestroy k g => exact .inl ⟨["xgroup", "destroy"], _, by simp, rfl, by decide +kernel⟩
  case connHGet => exact .inl ⟨["hget"], _, by simp, rfl, by decide +kernel⟩
  case get => exact .inl ⟨["get"], _, by simp, rfl, by decide +kernel⟩
  case del => exact .inl ⟨["del"], _, by simp, rfl, by decide +kernel⟩
  case sAdd => exact .inl ⟨["sadd"], _, by simp, rfl, by decide +kernel⟩
  case sIsMember => exact .inl ⟨["sismember"], _, by simp, rfl, by decide +kernel⟩
  case sMembers => exact .inl ⟨["smembers"], _, by simp, rfl, by decide +kernel⟩
  case sRandMember => exact .inl ⟨["srandmember"], _, by simp, rfl, by decide +kernel⟩
  case sPop => exact .inl ⟨["spop"], _, by simp, rfl, by decide +kernel⟩
  case sCard => exact .inl ⟨["scard"], _, by simp, rfl, by decide +kernel⟩
  case zScore => exact .inl ⟨["zscore"], _, by simp, rfl, by decide +kernel⟩
  case zAdd => exact .inl ⟨["zadd"], _, by simp, rfl, by decide +kernel⟩
  case zRevRank => exact .inl ⟨["zrevrank"], _, by simp, rfl, by decide +kernel⟩
  case zRevRange => exact .inl ⟨["zrevrange"], _, by simp, rfl, by decide +kernel⟩
  case zCard => exact .inl ⟨["zcard"], _, by simp, rfl, by decide +kernel⟩
  case zRangeByScore => exact .inl ⟨["zrangebyscore"], _, by simp, rfl, by decide +kernel⟩
  case zRem => exact .inl ⟨["zrem"], _, by simp, rfl, by decide +kernel⟩
  case hGet => exact .inl ⟨["hget"], _, by simp, rfl, by decide +kernel⟩
  case hGetAll => exact .inl ⟨["hgetall"], _, by simp, rfl, by decide +kernel⟩
  case hSet => exact .inl ⟨["hset"], _, by simp, rfl, by decide +kernel⟩
  case hDel => exact .inl ⟨["hdel"], _, by simp, rfl, by decide +kernel⟩
  case hLen => exact .inl ⟨["hlen"], _, by simp, rfl, by decide +kernel⟩
  case hIncrBy => exact .inl ⟨["hincrby"], _, by simp, rfl, by decide +kernel⟩
  case hKeys => exact .inl ⟨["hkeys"], _, by simp, rfl, by decide +kernel⟩
  case exist => exact .inl ⟨["exists"], _, by simp, rfl, by decide +kernel⟩
  case hExists => exact .inl ⟨["hexists"], _, by simp, rfl, by decide +kernel⟩
  case xReadGroup => exact .inl ⟨["xreadgroup"], _, by simp, rfl, by decide +kernel⟩
  case xLen => exact .inl ⟨["xlen"], _, by simp, rfl, by decide +kernel⟩
  case xDel => exact .inl ⟨["xdel"], _, by simp, rfl, by decide +kernel⟩
  case lRange => exact .inl ⟨["lrange"], _, by simp, rfl, by decide +kernel⟩
  case rPush => exact .inl ⟨["rpush"], _, by simp, rfl, by decide +kernel⟩
  case flushDB => exact .inl ⟨["flushdb"], _, by simp, rfl, by decide +kernel⟩
  case flushAll => exact .inl ⟨["flushall"], _, by simp, rfl, by decide +kernel⟩
  case xAdd => exact .inl ⟨["xadd"], _, by simp, rfl, by decide +kernel⟩
  case keys => exact .inl ⟨["keys"], _, by simp, rfl, by decide +kernel⟩

example : Names "XInfoGroups" (texts ["xinfo", "groups", "k"]) := ⟨["xinfo", "groups"], texts ["k"], by simp, rfl, by decide +kernel⟩

/-- C106 is violated: the key of `Del` is not shown, and the one of `XAdd` is shown as empty. -/
theorem C106_del_refuted (keys : List String) (a : Nat) :
    tags (.del keys) = some [("cmd", "Del")] ∧ tags (.xAdd a) = some [("cmd", "XAdd"), ("key", "")] := ⟨rfl, rfl⟩

end Braid.RedisOps
