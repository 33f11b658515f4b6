import Verif.NodeOpts.Spec

/-
C108: options of nodes and clients.
-/
namespace Braid.NodeOpts
open Spec

theorem lastOf_snoc {O α : Type} (sel : O → Option α) (d : α) (opts : List O) (o : O) :
    lastOf sel d (opts ++ [o]) = (sel o).getD (lastOf sel d opts) := by
  simp only [lastOf, List.filterMap_append]
  cases h : sel o with
  | none => simp [List.filterMap, h]
  | some x => simp [List.filterMap, h]

theorem snoc_ind {α : Type} {P : List α → Prop} (hn : P []) (hs : ∀ l a, P l → P (l ++ [a])) : ∀ l, P l := by
  intro l
  have : ∀ n, ∀ l : List α, l.length = n → P l := by
    intro n
    induction n with
    | zero => intro l h; rw [List.length_eq_zero_iff.1 h]; exact hn
    | succ n ih =>
      intro l h
      have hl : l ≠ [] := by intro h'; rw [h'] at h; cases h
      rw [← List.dropLast_concat_getLast hl]
      exact hs _ _ (ih _ (by simp [h]))
  exact this _ l rfl

/-- The parameters are the last ones given. -/
theorem parmOf_eq (opts : List Opt) :
    (parmOf opts).id = lastOf selId "" opts ∧ (parmOf opts).ip = lastOf selIp "127.0.0.1" opts ∧
    (parmOf opts).port = lastOf selPort 0 opts ∧ (parmOf opts).tracer = lastOf selTracer none opts ∧
    (parmOf opts).loader = lastOf selLoader none opts ∧ (parmOf opts).factory = lastOf selFactory none opts := by
  induction opts using snoc_ind with
  | hn => exact ⟨rfl, rfl, rfl, rfl, rfl, rfl⟩
  | hs l o ih =>
    obtain ⟨h1, h2, h3, h4, h5, h6⟩ := ih
    simp only [parmOf] at h1 h2 h3 h4 h5 h6
    simp only [lastOf_snoc, parmOf, List.foldl_append, List.foldl_cons, List.foldl_nil]
    cases o <;> simp [apply, selId, selIp, selPort, selTracer, selLoader, selFactory, h1, h2, h3, h4, h5, h6]

/-- C108: a node is built iff there are a loader and a factory and its port, if it has one, can be listened on; and then it
has the last values given, also in the address book, and an acceptor iff its port is not 0. -/
theorem C108_node (env : Env) (opts : List Opt) :
    match build env opts with
    | none => lastOf selLoader none opts = none ∨ lastOf selFactory none opts = none ∨
        (lastOf selPort 0 opts ≠ 0 ∧ env.canListen (lastOf selPort 0 opts) = false)
    | some x => x.sys.nodeID = lastOf selId "" opts ∧ x.sys.nodeIP = lastOf selIp "127.0.0.1" opts ∧
        x.sys.nodePort = lastOf selPort 0 opts ∧ x.sys.tracer = lastOf selTracer none opts ∧
        some x.sys.loader = lastOf selLoader none opts ∧ some x.sys.factory = lastOf selFactory none opts ∧
        x.sys.book = (x.sys.nodeID, x.sys.nodeIP, x.sys.nodePort) ∧
        (x.sys.acceptor = none ↔ x.sys.nodePort = 0) ∧
        (∀ p t, x.sys.acceptor = some (p, t) → p = x.sys.nodePort ∧ env.canListen p = true ∧ t = x.sys.clientTrace) ∧
        (∀ t, x.sys.clientTrace = some t ↔ x.sys.tracer = some t ∧ env.hasTracing t = true) := by
  obtain ⟨h1, h2, h3, h4, h5, h6⟩ := parmOf_eq opts
  rw [← h1, ← h2, ← h3, ← h4, ← h5, ← h6]
  simp only [build, buildSystem]
  generalize parmOf opts = p
  obtain ⟨id, weight, ip, port, tracer, loader, factory⟩ := p
  cases loader with
  | none => simp
  | some l =>
    cases factory with
    | none => simp
    | some f =>
      by_cases hp : port = 0
      · simp [hp, Option.filter_eq_some_iff]
      · cases hc : env.canListen port with
        | false => simp [hp]
        | true =>
          simp only [hp, ne_eq, not_false_eq_true, if_true, Option.map_some]
          refine ⟨trivial, trivial, trivial, trivial, trivial, trivial, trivial, by simp, ?_,
            by simp [Option.filter_eq_some_iff]⟩
          intro q t h
          cases h
          exact ⟨rfl, hc, rfl⟩

theorem parmOf_snoc (l : List Opt) (o : Opt) : parmOf (l ++ [o]) = apply (parmOf l) o := by
  simp [parmOf, List.foldl_append]

/-- Only the weight differs. -/
theorem parmOf_weight (a b : List Opt) (n : Int) : ∃ w, parmOf (a ++ .weight n :: b) = { parmOf (a ++ b) with weight := w } := by
  induction b using snoc_ind with
  | hn => exact ⟨n, by simp [parmOf, apply]⟩
  | hs l o ih =>
    obtain ⟨w, ih⟩ := ih
    rw [← List.append_assoc, show a ++ Opt.weight n :: (l ++ [o]) = (a ++ Opt.weight n :: l) ++ [o] by simp]
    rw [parmOf_snoc, parmOf_snoc, ih]
    cases o <;> first | exact ⟨w, rfl⟩ | exact ⟨_, rfl⟩

/-- C108 refuted: `NodeWithWeight` has no effect, whatever the weight; all other options of a node have one, whatever they
are given. -/
theorem C108_weight_refuted (o : Opt) : Effective o ↔ ∀ n, o ≠ .weight n := by
  constructor
  · rintro ⟨env, a, b, h⟩ n rfl
    obtain ⟨w, hw⟩ := parmOf_weight a b n
    apply h
    simp only [build, hw, Option.map_map]
    simp only [buildSystem]
    rfl
  · intro h
    let env : Env := ⟨fun _ => true, fun _ => true⟩
    cases o with
    | weight n => exact absurd rfl (h n)
    | id s =>
      refine ⟨env, [.loader (some 0), .factory (some 0), .id (s ++ "x")], [], ?_⟩
      simp only [build, buildSystem, parmOf, List.append_nil, List.foldl_cons, List.foldl_nil, apply,
        List.cons_append, List.nil_append, Option.map_map]
      simp only [ne_eq, not_true_eq_false, if_false, Option.map_some, Function.comp_apply, Option.some.injEq,
        System.mk.injEq, not_and]
      intro e
      have := congrArg String.length e
      simp [String.length_append] at this
    | ip s =>
      refine ⟨env, [.loader (some 0), .factory (some 0), .ip (s ++ "x")], [], ?_⟩
      simp only [build, buildSystem, parmOf, List.append_nil, List.foldl_cons, List.foldl_nil, apply,
        List.cons_append, List.nil_append, Option.map_map]
      simp only [ne_eq, not_true_eq_false, if_false, Option.map_some, Function.comp_apply, Option.some.injEq,
        System.mk.injEq, not_and]
      intro _ e
      have := congrArg String.length e
      simp [String.length_append] at this
    | serviceInfo s p =>
      refine ⟨env, [.loader (some 0), .factory (some 0), .port (p + 1)], [], ?_⟩
      intro e
      have h1 : ((build env ([.loader (some 0), .factory (some 0), .port (p + 1)] ++ [.serviceInfo s p])).map Process.sys).map
          System.nodePort = some p := by
        by_cases hp : p = 0 <;> simp [build, buildSystem, parmOf, apply, hp, env]
      have h2 : ((build env ([.loader (some 0), .factory (some 0), .port (p + 1)] ++ [])).map Process.sys).map
          System.nodePort = some (p + 1) := by
        by_cases hp : p + 1 = 0 <;> simp [build, buildSystem, parmOf, apply, hp, env]
      rw [e, h2] at h1
      simp at h1
      omega
    | port p =>
      refine ⟨env, [.loader (some 0), .factory (some 0), .port (p + 1)], [], ?_⟩
      intro e
      have h1 : ((build env ([.loader (some 0), .factory (some 0), .port (p + 1)] ++ [.port p])).map Process.sys).map
          System.nodePort = some p := by
        by_cases hp : p = 0 <;> simp [build, buildSystem, parmOf, apply, hp, env]
      have h2 : ((build env ([.loader (some 0), .factory (some 0), .port (p + 1)] ++ [])).map Process.sys).map
          System.nodePort = some (p + 1) := by
        by_cases hp : p + 1 = 0 <;> simp [build, buildSystem, parmOf, apply, hp, env]
      rw [e, h2] at h1
      simp at h1
      omega
    | loader l =>
      cases l with
      | none => exact ⟨env, [.loader (some 0), .factory (some 0)], [], by simp [build, buildSystem, parmOf, apply]⟩
      | some n => exact ⟨env, [.loader (some (n + 1)), .factory (some 0)], [], by simp [build, buildSystem, parmOf, apply]⟩
    | factory l =>
      cases l with
      | none => exact ⟨env, [.loader (some 0), .factory (some 0)], [], by simp [build, buildSystem, parmOf, apply]⟩
      | some n => exact ⟨env, [.loader (some 0), .factory (some (n + 1))], [], by simp [build, buildSystem, parmOf, apply]⟩
    | tracer t =>
      cases t with
      | none =>
        exact ⟨env, [.loader (some 0), .factory (some 0), .tracer (some 0)], [], by simp [build, buildSystem, parmOf, apply]⟩
      | some n => exact ⟨env, [.loader (some 0), .factory (some 0)], [], by simp [build, buildSystem, parmOf, apply]⟩

/-- C108 refuted: options given to `Init` of a node have no effect at all. -/
theorem C108_init_refuted (x : Process) (opts opts' : List Opt) : initNode x opts = initNode x opts' := rfl

theorem afterBuilds_eq (env : Env) (calls : List (List Opt)) : afterBuilds env calls = lastBuilt env calls := by
  induction calls using snoc_ind with
  | hn => rfl
  | hs l o ih =>
    simp only [afterBuilds, lastBuilt] at ih
    simp only [afterBuilds, lastBuilt, List.foldl_append, List.foldl_cons, List.foldl_nil, ih, List.filterMap_append]
    cases h : build env o <;> simp [setPcs, h]

/-- C108: `Get` gives the node of the last `BuildProcessWithOption` that did not panic. -/
theorem C108_get_partial (env : Env) (calls : List (List Opt)) (x : Process) (h : lastBuilt env calls = some x) :
    get (afterBuilds env calls) = .ptr (some x) ∧ idOf (get (afterBuilds env calls)) = some x.p.id := by
  rw [afterBuilds_eq, h]
  exact ⟨rfl, rfl⟩

/-- C108 refuted: before that, `Get` does not give nil but a node whose methods panic. -/
theorem C108_get_refuted (env : Env) (calls : List (List Opt)) (h : lastBuilt env calls = none) :
    get (afterBuilds env calls) ≠ .nil ∧ idOf (get (afterBuilds env calls)) = none := by
  rw [afterBuilds_eq, h]
  exact ⟨by simp [get], rfl⟩

/-! ### Clients -/

theorem foldC_eq (opts : List COpt) (p : CParm) :
    (opts.foldl applyC p).maxCalls = lastOf selMax p.maxCalls opts ∧
    (opts.foldl applyC p).addrs = p.addrs ++ connsOf opts ∧
    (opts.foldl applyC p).dial = p.dial ++ dialOf opts ∧
    (opts.foldl applyC p).unary = p.unary ++ unaryOf opts := by
  induction opts using snoc_ind with
  | hn => simp [lastOf, connsOf, dialOf, unaryOf]
  | hs l o ih =>
    obtain ⟨h1, h2, h3, h4⟩ := ih
    simp only [List.foldl_append, List.foldl_cons, List.foldl_nil, lastOf_snoc, connsOf, dialOf, unaryOf,
      List.flatMap_append, List.flatMap_cons, List.flatMap_nil] at h2 h3 h4 ⊢
    cases o <;> simp [applyC, selMax, h1, h2, h3, h4, connOf1, dialOf1, unaryOf1]

/-- C108: a client admits as many calls as the last option says (1024 without one), and building it panics iff that is
negative; it dials with the interceptors given, in order, then the dial options given, in order; `Init` dials the addresses
given, in order. -/
theorem C108_client (opts : List COpt) :
    match buildClient opts with
    | none => lastOf selMax 1024 opts < 0
    | some c => 0 ≤ lastOf selMax 1024 opts ∧ (c.workers : Int) = lastOf selMax 1024 opts ∧
        dialOpts c = .insecure :: (if unaryOf opts = [] then [] else [.unary (unaryOf opts)]) ++ dialOf opts ∧
        c.parm.addrs = connsOf opts := by
  obtain ⟨h1, h2, h3, h4⟩ := foldC_eq opts defaultC
  simp only [buildClient]
  split
  · rename_i h
    split at h
    · rename_i h5; rw [h1] at h5; exact h5
    · cases h
  · rename_i c h
    split at h
    · cases h
    · rename_i h5
      cases h
      rw [h1] at h5
      refine ⟨Int.not_lt.1 h5, ?_, ?_, ?_⟩
      · rw [h1]
        exact Int.toNat_of_nonneg (Int.not_lt.1 h5)
      · have h3' : (opts.foldl applyC defaultC).dial = dialOf opts := h3
        have h4' : (opts.foldl applyC defaultC).unary = unaryOf opts := h4
        simp only [dialOpts, h3', h4']
        cases unaryOf opts <;> simp
      · rw [h2]; rfl

/-- C108 refuted: the options for the pool (`WithClientPoolInitNum`, `WithClientPoolCapacity`, `WithClientPoolIdle`),
`WithCallTimeout` and `ClientAppendStreamInterceptors` have no effect, whatever they are given; the other ones have,
unless they are given nothing. -/
theorem C108_client_refuted (o : COpt) : EffectiveC o ↔ works o = true := by
  have hs : ∀ opts, seen opts = if lastOf selMax 1024 opts < 0 then none else
      some ((lastOf selMax 1024 opts).toNat, Dial.insecure ::
        ((if 0 < (unaryOf opts).length then
          [.unary (unaryOf opts)] else []) ++ dialOf opts),
        connsOf opts) := by
    intro opts
    obtain ⟨h1, h2, h3, h4⟩ := foldC_eq opts defaultC
    simp only [seen, buildClient, h1, dialOpts]
    by_cases h5 : lastOf selMax defaultC.maxCalls opts < 0
    · rw [if_pos h5]; exact (if_pos h5).symm
    · rw [if_neg h5]
      refine Eq.trans ?_ (if_neg h5).symm
      have h2' : (opts.foldl applyC defaultC).addrs = connsOf opts := h2
      have h3' : (opts.foldl applyC defaultC).dial = dialOf opts := h3
      have h4' : (opts.foldl applyC defaultC).unary = unaryOf opts := h4
      simp only [Option.map_some, h2', h3', h4']
      rfl
  constructor
  · rintro ⟨a, b, h⟩
    rw [hs, hs] at h
    cases hw : works o with
    | true => rfl
    | false =>
      exfalso
      apply h
      have h1 : lastOf selMax 1024 (a ++ o :: b) = lastOf selMax 1024 (a ++ b) := by
        have : selMax o = none := by cases o <;> first | rfl | (cases hw; done)
        simp [lastOf, this]
      cases o <;> simp_all [works, connsOf, dialOf, unaryOf, connOf1, dialOf1, unaryOf1]
  · intro hw
    cases o with
    | poolInit n => cases hw
    | poolCap n => cases hw
    | poolIdle n => cases hw
    | callTimeout n => cases hw
    | stream n => cases hw
    | maxCalls n =>
      by_cases hn : n = 0
      · subst hn
        exact ⟨[], [], by simp [hs, lastOf, selMax, connsOf, dialOf, unaryOf, connOf1, dialOf1, unaryOf1]⟩
      · refine ⟨[.maxCalls 0], [], ?_⟩
        rw [hs, hs]
        simp only [List.append_nil, List.cons_append, List.nil_append]
        have e1 : lastOf selMax 1024 [.maxCalls 0, .maxCalls n] = n := by simp [lastOf, selMax]
        have e2 : lastOf selMax 1024 [.maxCalls 0] = 0 := by simp [lastOf, selMax]
        rw [e1, e2]
        by_cases h0 : n < 0
        · simp [h0]
        · simp [h0]; omega
    | conns l =>
      refine ⟨[], [], ?_⟩
      cases l with
      | nil => cases hw
      | cons x r => simp [hs, lastOf, selMax, connsOf, dialOf, unaryOf, connOf1, dialOf1, unaryOf1]
    | dial l =>
      refine ⟨[], [], ?_⟩
      cases l with
      | nil => cases hw
      | cons x r => simp [hs, lastOf, selMax, connsOf, dialOf, unaryOf, connOf1, dialOf1, unaryOf1]
    | unary l =>
      refine ⟨[], [], ?_⟩
      cases l with
      | nil => cases hw
      | cons x r => simp [hs, lastOf, selMax, connsOf, dialOf, unaryOf, connOf1, dialOf1, unaryOf1]

theorem dialled_cons (ok : Nat → String → Bool) (i : Nat) (a : String) (as : List String) :
    dialled ok i (a :: as) = if ok i a then a :: dialled ok (i + 1) as else dialled ok (i + 1) as := by
  simp only [dialled, List.zipIdx_cons, List.filter_cons]
  cases ok i a <;> simp

theorem initLoop_spec (ok : Nat → String → Bool) : ∀ (as : List String) (i : Nat) (s : Conns) (L : List String),
    s.opened = L.length → Latest s.map L →
    (initLoop ok i as s).opened = (L ++ dialled ok i as).length ∧ Latest (initLoop ok i as s).map (L ++ dialled ok i as)
  | [], i, s, L, h1, h2 => by simpa [initLoop, dialled] using ⟨h1, h2⟩
  | a :: as, i, s, L, h1, h2 => by
    rw [dialled_cons]
    simp only [initLoop]
    cases hok : ok i a with
    | false => exact initLoop_spec ok as (i + 1) s L h1 h2
    | true =>
      simp only [if_true]
      have h3 : Latest (upd s.map a (some s.opened)) (L ++ [a]) := by
        intro b c
        rw [upd_apply]
        by_cases hb : b = a
        · subst hb
          simp only [if_true, Option.some.injEq]
          constructor
          · rintro rfl
            refine ⟨by simp [h1], fun c' hc' => ?_⟩
            rw [List.getElem?_eq_none (by simp; omega)]
            simp
          · rintro ⟨h4, h5⟩
            have h6 := (List.getElem?_eq_some_iff.1 h4).1
            simp at h6
            rcases Nat.lt_or_ge c L.length with h7 | h7
            · exact absurd (by simp) (h5 L.length h7)
            · omega
        · simp only [hb, if_false]
          rw [h2 b c]
          constructor
          · rintro ⟨h4, h5⟩
            have h6 := (List.getElem?_eq_some_iff.1 h4).1
            refine ⟨by rw [List.getElem?_append_left h6]; exact h4, fun c' hc' => ?_⟩
            rcases Nat.lt_or_ge c' L.length with h7 | h7
            · rw [List.getElem?_append_left h7]; exact h5 c' hc'
            · rw [List.getElem?_append_right h7]
              intro h8
              rcases Nat.eq_zero_or_pos (c' - L.length) with h9 | h9
              · rw [h9] at h8
                simp at h8
                exact hb h8.symm
              · rw [List.getElem?_eq_none (by simp; omega)] at h8
                cases h8
          · rintro ⟨h4, h5⟩
            have h6 := (List.getElem?_eq_some_iff.1 h4).1
            simp at h6
            rcases Nat.lt_or_ge c L.length with h7 | h7
            · refine ⟨by rw [List.getElem?_append_left h7] at h4; exact h4, fun c' hc' h8 => ?_⟩
              have h9 := (List.getElem?_eq_some_iff.1 h8).1
              exact h5 c' hc' (by rw [List.getElem?_append_left h9]; exact h8)
            · have : c = L.length := by omega
              subst this
              simp at h4
              exact absurd h4.symm hb
      have := initLoop_spec ok as (i + 1) ⟨s.opened + 1, upd s.map a (some s.opened)⟩ (L ++ [a]) (by simp [h1]) h3
      simpa using this

/-- C108: `Init` opens one connection for each address that can be dialled, and knows for each address the connection
dialled last. It returns nil in any case. -/
theorem C108_init (c : Client) (ok : Nat → String → Bool) :
    (initClient c ok).1.opened = (dialled ok 0 c.parm.addrs).length ∧
    Latest (initClient c ok).1.map (dialled ok 0 c.parm.addrs) ∧ (initClient c ok).2 = true := by
  have := initLoop_spec ok c.parm.addrs 0 ⟨0, fun _ => none⟩ [] rfl (by intro a c; simp)
  exact ⟨by simpa [initClient] using this.1, by simpa [initClient] using this.2, rfl⟩

/-- C108 refuted: a connection is lost, open and not reachable by anyone, if and only if an address that can be dialled is
given more than once. -/
theorem C108_leak_refuted (c : Client) (ok : Nat → String → Bool) :
    (∃ n, n < (initClient c ok).1.opened ∧ ∀ a, (initClient c ok).1.map a ≠ some n) ↔
    ¬ (dialled ok 0 c.parm.addrs).Nodup := by
  obtain ⟨h1, h2, -⟩ := C108_init c ok
  rw [h1]
  generalize dialled ok 0 c.parm.addrs = L at h2
  generalize (initClient c ok).1.map = m at h2
  constructor
  · rintro ⟨n, hn, ha⟩ hd
    refine ha L[n] ((h2 _ _).2 ⟨List.getElem?_eq_getElem hn, fun c' hc' h3 => ?_⟩)
    obtain ⟨h4, h5⟩ := List.getElem?_eq_some_iff.1 h3
    rw [List.nodup_iff_pairwise_ne, List.pairwise_iff_getElem] at hd
    exact hd n c' hn h4 hc' h5.symm
  · intro hd
    have : ∃ i j, ∃ (hi : i < L.length) (hj : j < L.length), i < j ∧ L[i] = L[j] := by
      apply Classical.byContradiction
      intro hno
      apply hd
      rw [List.nodup_iff_pairwise_ne, List.pairwise_iff_getElem]
      intro i j hi hj hij heq
      exact hno ⟨i, j, hi, hj, hij, heq⟩
    obtain ⟨i, j, hi, hj, hij, heq⟩ := this
    refine ⟨i, hi, fun a ha => ?_⟩
    obtain ⟨h3, h4⟩ := (h2 _ _).1 ha
    rw [List.getElem?_eq_getElem hi] at h3
    cases h3
    exact h4 j hij (by rw [List.getElem?_eq_getElem hj, heq])

/-! ### Examples -/

/-- A node with a port, and one for which the weight is set. -/
example : (build ⟨fun _ => true, fun _ => true⟩ [.id "n", .serviceInfo "10.0.0.1" 80, .loader (some 1), .factory (some 2),
    .tracer (some 3), .ip "10.0.0.2"]).map Process.sys =
    some ⟨"n", "10.0.0.2", 80, some 3, some 3, 1, 2, ("n", "10.0.0.2", 80), some (80, some 3)⟩ := by decide +kernel

/-- The hypothesis of `C108_get_partial`, with a build that panics after one that does not, and that of
`C108_get_refuted`. -/
example : (∃ x, lastBuilt ⟨fun _ => true, fun _ => true⟩ [[.id "n", .loader (some 1), .factory (some 2)], [.id "m"]] = some x ∧
    x.p.id = "n") ∧ lastBuilt ⟨fun _ => true, fun _ => true⟩ [[.id "m"]] = none :=
  ⟨⟨_, rfl, rfl⟩, rfl⟩

/-- A client with options of all kinds; a connection that is lost, and none that is. -/
example : seen [.unary [1, 2], .maxCalls 5, .dial [.other 7], .unary [3], .conns ["a", "b", "a"], .callTimeout 3] =
    some (5, [.insecure, .unary [1, 2, 3], .other 7], ["a", "b", "a"]) ∧
    ¬ (dialled (fun _ _ => true) 0 ["a", "b", "a"]).Nodup ∧
    (dialled (fun i _ => i != 2) 0 ["a", "b", "a"]).Nodup := by decide +kernel

end Braid.NodeOpts
