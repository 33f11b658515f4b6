import Verif.Tracing.Spec

/-
C95: a tracer has the options and span factories it was built with.  C96: operations on MongoDB are traced.  C97: every
option of a tracer has an effect.
-/
namespace Braid.Tracing
open Spec

/-! ### C95 -/

theorem fill_eq (l : List (String × Nat)) (m : String → Option Nat) (k : String) :
    fill m l k = (m k).or ((l.find? (·.1 = k)).map Prod.snd) := by
  induction l generalizing m with
  | nil => simp [fill]
  | cons v vs ih =>
    simp only [fill]
    cases hn : m v.1 with
    | none =>
      simp only
      rw [ih]
      by_cases hk : k = v.1
      · subst hk; simp [hn]
      · simp [hk, Ne.symm hk]
    | some f =>
      simp only
      rw [ih]
      by_cases hk : k = v.1
      · subst hk; simp [hn]
      · simp [Ne.symm hk]

theorem foldl_opts (opts : List Opt) (p : Parm) :
    (opts.foldl applyOpt p).name = lastOf selName p.name opts ∧
    (opts.foldl applyOpt p).endpoint = lastOf selHttp p.endpoint opts ∧
    (opts.foldl applyOpt p).agent = lastOf selUdp p.agent opts ∧
    (opts.foldl applyOpt p).rate = lastOf selRate p.rate opts ∧
    (opts.foldl applyOpt p).sampler = lastOf selSampler p.sampler opts ∧
    (opts.foldl applyOpt p).factories = p.factories ++ factoriesOf opts := by
  induction opts generalizing p with
  | nil => simp [lastOf, factoriesOf]
  | cons o os ih =>
    rw [List.foldl_cons]
    obtain ⟨h1, h2, h3, h4, h5, h6⟩ := ih (applyOpt p o)
    rw [h1, h2, h3, h4, h5, h6]
    cases o <;> simp [applyOpt, lastOf, selName, selHttp, selUdp, selRate, selSampler, factoriesOf, List.getLast?_cons,
      List.append_assoc]

/-- C95: a span is made by the factory that was registered first under its name; there is an error iff no factory has
the name, or this factory fails. -/
theorem C95_get_span (works : Nat → Bool) (opts : List Opt) (name : String) :
    getSpan works (build opts) name =
      match (factoriesOf opts).find? (·.1 = name) with
      | none => .error .notExist
      | some f => if works f.2 then .ok f.2 else .error .factory := by
  simp only [getSpan, build, fill_eq, (foldl_opts opts _).2.2.2.2.2, List.nil_append]
  cases (factoriesOf opts).find? (·.1 = name) <;> simp

/-- C95: the tracer has the name, sampler and rate that were given last; spans go to the HTTP endpoint if there is one and
to the agent otherwise. -/
theorem C95_options (opts : List Opt) :
    (build opts).serviceName = lastOf selName "braid" opts ∧
    (build opts).sampler = lastOf selSampler "const" opts ∧
    (build opts).rate = lastOf selRate 1 opts ∧
    (build opts).reporterRate = lastOf selRate 1 opts ∧
    (∀ e, (build opts).transport = .http e ↔ e ≠ "" ∧ lastOf selHttp "" opts = e) ∧
    (∀ a, (build opts).transport = .udp a ↔ lastOf selHttp "" opts = "" ∧ lastOf selUdp "" opts = a) := by
  obtain ⟨h1, h2, h3, h4, h5, -⟩ := foldl_opts opts ⟨"braid", "", "", 1, "const", 200, 50, []⟩
  simp only [build, h1, h2, h3, h4, h5, true_and]
  constructor <;> intro e
  · by_cases he : lastOf selHttp "" opts = ""
    · simp only [he, ne_eq, not_true, if_false]
      constructor
      · intro h; cases h
      · rintro ⟨h1, rfl⟩; exact absurd rfl h1
    · simp only [he, ne_eq, not_false_eq_true, if_true, Transport.http.injEq]
      constructor
      · rintro rfl; exact ⟨he, rfl⟩
      · exact fun h => h.2
  · by_cases he : lastOf selHttp "" opts = "" <;> simp [he]

example : getSpan (fun _ => true) (build [.factories [("a", 1), ("b", 2)], .factories [("a", 3)]]) "a" = .ok 1 ∧
    getSpan (fun _ => true) (build [.factories [("a", 1)]]) "" = .error .notExist := ⟨rfl, rfl⟩

/-! ### C96 -/

/-- C96, the full statement: with a tracer that makes spans, every operation on a collection is traced. -/
def AllTraced : Prop :=
  ∀ works cfg t op x r, cfg = some t → (∃ f, getSpan works t "" = .ok f) →
    Traced op x (run works (collectionTracer cfg) op x r).1

/-- C96, second part: different operations are traced under different names. -/
def NamesDiffer : Prop :=
  ∀ works trc op op' name, NamedAs works trc op name → NamedAs works trc op' name → op = op'

/-- C96, third part: spans show the filter and the documents of the operation. -/
def ArgsShown : Prop :=
  ∀ works t op x r, (∃ f, getSpan works t "" = .ok f) → Shows op x (run works (some t) op x r).1

/-- A tracer with a factory under the empty name. -/
def exTracer : Tracer := build [.factories [("", 7)]]

theorem not_traced (op : Op) (x : Args) : ¬ Traced op x [.db op x] := by
  rintro ⟨f, name, tags, he, -⟩
  simp at he

/-- C96 is violated: collections are made without the tracer, so no operation is traced. -/
theorem C96_no_tracer_refuted : ¬ AllTraced := by
  intro hall
  exact not_traced .find _ (hall (fun _ => true) (some exTracer) exTracer .find ⟨some 1, none, 0⟩ (.value 0) rfl ⟨7, rfl⟩)

/-- C96 is violated for every configuration and operation. -/
theorem C96_never (works : Nat → Bool) (cfg : Option Tracer) (op : Op) (x : Args) (r : Res) :
    (run works (collectionTracer cfg) op x r).1 = [.db op x] := by
  cases op <;> rfl

/-- C96 is violated: with a tracer in the collection, two operations are not traced. -/
theorem C96_untraced_refuted (works : Nat → Bool) (trc : Option Tracer) (x : Args) (r : Res) :
    ¬ Traced .aggregate x (run works trc .aggregate x r).1 ∧
    ¬ Traced .countDocuments x (run works trc .countDocuments x r).1 :=
  ⟨not_traced _ _, not_traced _ _⟩

theorem no_span {works : Nat → Bool} {t : Tracer} {e : SpanErr} (hg : getSpan works t "" = .error e) (op : Op)
    (x : Args) (r : Res) : (run works (some t) op x r).1 = [.db op x] := by
  cases op <;> simp [run, traceArgs, tracing, hg]

/-- C96 is violated: the spans need a factory under the empty name. -/
theorem C96_factory_refuted (works : Nat → Bool) (opts : List Opt) (hn : ∀ f ∈ factoriesOf opts, f.1 ≠ "") (op : Op)
    (x : Args) (r : Res) : ¬ Traced op x (run works (some (build opts)) op x r).1 := by
  have hg : getSpan works (build opts) "" = .error .notExist := by
    rw [C95_get_span]
    have : (factoriesOf opts).find? (·.1 = "") = none := by simpa using hn
    rw [this]
  rw [no_span hg]
  exact not_traced op x

/-- C96 is violated: names of commands are used twice. -/
theorem C96_names_refuted : ¬ NamesDiffer := by
  intro hall
  have := hall (fun _ => true) (some exTracer) .replaceOne .findOneAndUpdate "replaceone"
    ⟨⟨none, none, 0⟩, .value 0, 7, by decide⟩ ⟨⟨none, none, 0⟩, .value 0, 7, by decide⟩
  cases this

/-- C96 is violated: the documents of `InsertMany` are not shown. -/
theorem C96_args_refuted : ¬ ArgsShown := by
  intro hall
  have := (hall (fun _ => true) exTracer .insertMany ⟨none, some 3, 0⟩ (.value 0) ⟨7, rfl⟩).2 (by simp [hasDocument]) 3
  obtain ⟨f, hf⟩ := this.1 rfl
  have hrun : (run (fun _ => true) (some exTracer) .insertMany ⟨none, some 3, 0⟩ (.value 0)).1 =
      [.begin 7, .tag 7 "collection" .coll, .tag 7 "cmd" (.text "insertmany"), .db .insertMany ⟨none, some 3, 0⟩,
        .finish 7] := by decide
  rw [hrun] at hf
  simp at hf

/-- C96 (partial): if the collection has a tracer with a factory for the empty name, every operation but two is traced,
also when the driver panics. Missing from the full statement: these two, and that collections have the tracer. -/
theorem C96_traced_partial {works : Nat → Bool} {t : Tracer} {f : Nat} (hg : getSpan works t "" = .ok f) {op : Op}
    (ho : op ≠ .aggregate ∧ op ≠ .countDocuments) (x : Args) (r : Res) :
    Traced op x (run works (some t) op x r).1 := by
  have key : ∀ cmd a b, Traced op x ((tracing works (some t) cmd a b).2 ++ [.db op x] ++ [.finish f]) := by
    intro cmd a b
    refine ⟨f, cmd, [.tag f "collection" .coll, .tag f "cmd" (.text cmd)] ++
      (match a with | some v => [.tag f "filter" v] | none => []) ++
      (match b with | some v => [.tag f "document" v] | none => []), ?_, by simp, ?_⟩
    · cases a <;> cases b <;> simp [tracing, hg]
    · cases a <;> cases b <;> simp
  cases hta : traceArgs x op with
  | none => cases op <;> simp [traceArgs] at hta ho
  | some y =>
    obtain ⟨cmd, fl, doc⟩ := y
    have h1 : tracing works (some t) cmd fl doc = (some f, (tracing works (some t) cmd fl doc).2) := by
      simp [tracing, hg]
    simp only [run, hta]
    rw [h1]
    exact key cmd _ _

/-- C96: tracing never changes what an operation does: it runs once, with its arguments, and its result is returned. -/
theorem C96_result (works : Nat → Bool) (trc : Option Tracer) (op : Op) (x : Args) (r : Res) :
    (run works trc op x r).2 = r ∧
    (run works trc op x r).1.filter (fun | .db _ _ => true | _ => false) = [.db op x] := by
  simp only [run]
  split
  · simp
  · rename_i cmd fl doc _
    simp only [tracing]
    rcases trc with _ | t
    · simp
    · cases hg : getSpan works t "" with
      | error e => simp [hg]
      | ok f => cases fl <;> cases doc <;> simp [hg]

theorem named_eq {works : Nat → Bool} {trc : Option Tracer} {name : String} :
    ∀ o, NamedAs works trc o name → (traceArgs ⟨none, none, 0⟩ o).map Prod.fst = some name := by
  rintro o ⟨x, r, f, hm⟩
  have h0 : (traceArgs x o).map Prod.fst = (traceArgs ⟨none, none, 0⟩ o).map Prod.fst := by cases o <;> rfl
  rw [← h0]
  simp only [run] at hm
  split at hm
  · simp at hm
  · rename_i cmd fl doc hta
    rw [hta]
    simp only [tracing] at hm
    rcases trc with _ | t
    · simp at hm
    · cases hg : getSpan works t "" with
      | error e => simp [hg] at hm
      | ok g =>
        simp only [hg] at hm
        have : name = cmd := by
          cases fl <;> cases doc <;> simp at hm <;> exact hm.2
        simp [this]

/-- C96 (partial): apart from upper and lower case, an operation is traced under the name of its method. Missing from the
full statement: four operations, which are traced under other names. -/
theorem C96_own_name_partial {works : Nat → Bool} {trc : Option Tracer} {op : Op} {name : String}
    (h : NamedAs works trc op name) (ho : op ∉ [.createIndexes, .indexList, .deleteOneIndex, .findOneAndUpdate]) :
    lower name = lower (methodName op) := by
  have k := named_eq op h
  revert ho
  cases op <;> simp only [traceArgs, Option.map_some, Option.map_none, Option.some.injEq, reduceCtorEq] at k <;>
    (first | (subst k; simp [lower, methodName]) | cases k)

/-- C96 is violated: these four operations are traced under a name that is not that of their method. -/
theorem C96_other_name_refuted {works : Nat → Bool} {trc : Option Tracer} {op : Op} {name : String}
    (h : NamedAs works trc op name) (ho : op ∈ [.createIndexes, .indexList, .deleteOneIndex, .findOneAndUpdate]) :
    lower name ≠ lower (methodName op) := by
  have k := named_eq op h
  revert ho
  cases op <;> simp only [traceArgs, Option.map_some, Option.map_none, Option.some.injEq, reduceCtorEq] at k <;>
    (first | (subst k; simp [lower, methodName]) | cases k)

example : NamedAs (fun _ => true) (some exTracer) .bulkWrite "BulkWrite" ∧
    NamedAs (fun _ => true) (some exTracer) .indexList "setttl" :=
  ⟨⟨⟨none, none, 0⟩, .value 0, 7, by decide⟩, ⟨⟨none, none, 0⟩, .value 0, 7, by decide⟩⟩

/-- C96 (partial): a name is shared only by the operations on indexes, or by `ReplaceOne` and `FindOneAndUpdate`. -/
theorem C96_names_partial {works : Nat → Bool} {trc : Option Tracer} {op op' : Op} {name : String}
    (h : NamedAs works trc op name) (h' : NamedAs works trc op' name) :
    op = op' ∨ (op ∈ [.setTTL, .createIndexes, .indexList] ∧ op' ∈ [.setTTL, .createIndexes, .indexList]) ∨
      (op ∈ [.replaceOne, .findOneAndUpdate] ∧ op' ∈ [.replaceOne, .findOneAndUpdate]) := by
  have k1 := named_eq op h
  have k2 := named_eq op' h'
  have : (traceArgs ⟨none, none, 0⟩ op).map Prod.fst = (traceArgs ⟨none, none, 0⟩ op').map Prod.fst ∧
      (traceArgs ⟨none, none, 0⟩ op).map Prod.fst ≠ none := by
    rw [k1, k2]; simp
  clear k1 k2 h h'
  revert this
  cases op <;> cases op' <;> decide

/-- C96 (partial): spans show the filter and the documents. Missing from the full statement: the four operations that show
nothing. -/
theorem C96_args_partial {works : Nat → Bool} {t : Tracer} {f : Nat} (hg : getSpan works t "" = .ok f) {op : Op}
    (ho : op ∉ [.aggregate, .countDocuments, .insertMany, .bulkWrite]) (x : Args) (r : Res) :
    Shows op x (run works (some t) op x r).1 := by
  obtain ⟨fl, doc, i⟩ := x
  cases op <;> simp [Shows, hasFilter, hasDocument] at ho ⊢ <;> simp only [run, traceArgs, tracing, hg] <;>
    cases fl <;> cases doc <;> simp [eq_comm]

example : (run (fun _ => true) (some exTracer) .updateOne ⟨some 1, some 2, 0⟩ .panic).1 =
    [.begin 7, .tag 7 "collection" .coll, .tag 7 "cmd" (.text "updateone"), .tag 7 "filter" (.arg 1),
      .tag 7 "document" (.arg 2), .db .updateOne ⟨some 1, some 2, 0⟩, .finish 7] := by
  decide

/-! ### C97 -/

/-- An option has an effect: for some other options the tracer is another one with it. -/
def Counts (o : Opt) : Prop := ∃ opts, build (opts ++ [o]) ≠ build opts

theorem str (s : String) : s ≠ s ++ "a" := by
  intro h
  have := congrArg String.length h
  simp at this

theorem str' (s : String) : s ++ "a" ≠ "" := by
  intro h
  have := congrArg String.length h
  simp at this

/-- C97 (partial): which options have an effect: all but the limits for slow requests and spans, and empty lists of
factories. Missing from the full statement: the limits. -/
theorem C97_counts_partial (o : Opt) :
    Counts o ↔ (∀ n, o ≠ .slowRequest n) ∧ (∀ n, o ≠ .slowSpan n) ∧ o ≠ .factories [] := by
  constructor
  · rintro ⟨opts, hne⟩
    refine ⟨?_, ?_, ?_⟩
    · rintro n rfl; exact hne (by simp [build, List.foldl_append, applyOpt])
    · rintro n rfl; exact hne (by simp [build, List.foldl_append, applyOpt])
    · rintro rfl; exact hne (by simp [build, List.foldl_append, applyOpt])
  · rintro ⟨h1, h2, h3⟩
    cases o with
    | serviceName s =>
      exact ⟨[.serviceName (s ++ "a")], fun h => str s (congrArg Tracer.serviceName h)⟩
    | probabilistic n =>
      refine ⟨[.probabilistic (n + 1)], fun h => ?_⟩
      have : n = n + 1 := congrArg Tracer.rate h
      omega
    | samplerType s => exact ⟨[.samplerType (s ++ "a")], fun h => str s (congrArg Tracer.sampler h)⟩
    | slowRequest n => exact absurd rfl (h1 n)
    | slowSpan n => exact absurd rfl (h2 n)
    | http s =>
      refine ⟨[.http (s ++ "a")], fun h => ?_⟩
      have h' := congrArg Tracer.transport h
      have h2 : (build [.http (s ++ "a")]).transport = .http (s ++ "a") :=
        ((C95_options _).2.2.2.2.1 _).2 ⟨str' s, rfl⟩
      rw [h2] at h'
      exact str s (((C95_options _).2.2.2.2.1 _).1 h').2
    | udp s =>
      refine ⟨[.udp (s ++ "a")], fun h => ?_⟩
      have h' := congrArg Tracer.transport h
      have h2 : (build [.udp (s ++ "a")]).transport = .udp (s ++ "a") :=
        ((C95_options _).2.2.2.2.2 _).2 ⟨rfl, rfl⟩
      rw [h2] at h'
      exact str s (((C95_options _).2.2.2.2.2 _).1 h').2
    | factories l =>
      cases l with
      | nil => exact absurd rfl h3
      | cons v vs =>
        refine ⟨[], fun h => ?_⟩
        have h' := congrFun (congrArg Tracer.factory h) v.1
        simp [build, applyOpt, fill_eq] at h'

/-- C97 is violated: the limits above which requests and spans are to be logged are not used. -/
theorem C97_slow_refuted : ¬ ∀ o, o ≠ .factories [] → Counts o :=
  fun h => ((C97_counts_partial _).1 (h (.slowSpan 5) (by simp))).2.1 5 rfl

end Braid.Tracing
