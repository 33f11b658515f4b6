import Verif.AddressBook.Select

/-
Properties C32-C38: the address book.
-/
namespace Braid.AddressBook
open Spec

variable {cfg : Nat → NodeCfg} {own : String → Nat}

deriving instance DecidableEq for Except

/-- Node ids are different for different nodes. -/
def DistinctNodes (cfg : Nat → NodeCfg) : Prop := ∀ m n, (cfg m).nodeID = (cfg n).nodeID → m = n

/-- The cluster of the examples: node `n` is called `aa..a` (n + 1 letters). -/
def exCfg (n : Nat) : NodeCfg := ⟨String.ofList (List.replicate (n + 1) 'a'), "10.0.0.1", n⟩

theorem exCfg_distinct : DistinctNodes exCfg := by
  intro m n h
  have := congrArg (fun s => s.toList.length) h
  simpa [exCfg] using this

/-- Node 0 owns the ids "x" and "y", node 1 all the others. -/
def exOwn (id : String) : Nat := if id = "x" ∨ id = "y" then 0 else 1

/-- A history of two nodes that follows the rules. -/
def exOps : List Op :=
  [.register 0 "t" "x" 3, .register 1 "t" "z" 5, .register 0 "u" "y" 4, .register 0 "t" "x" 9,
    .unregister 0 "y" 4]

theorem exOps_legal : LegalOps exOwn exOps := by
  refine legalOps_concat (ops := [_, _, _, _]) (legalOps_concat (ops := [_, _, _])
    (legalOps_concat (ops := [_, _]) (legalOps_concat (ops := [_]) (legalOps_concat (ops := [])
      legalOps_nil ?_) ?_) ?_) ?_) ?_ <;>
  simp [Legal, stopped, opNode, exOwn, dir, dirStep]

/-! ### C32 -/

/-- C32: what `Register` and `Unregister` return, and that the lookups from every node that has not
stopped show exactly the actors of the directory. -/
theorem C32_lookup_exact (hd : DistinctNodes cfg) (ops : List Op) (hl : LegalOps own ops) :
    (∀ r ∈ dir ops,
      (∀ m, m ∉ stopped ops → ∃ a, getByID cfg (runOps cfg ops) m r.id = .ok a ∧
        a.actorId = r.id ∧ a.node = (cfg r.node).nodeID ∧ a.ip = (cfg r.node).ip ∧
        a.port = (cfg r.node).port) ∧
      r.addr cfg ∈ getByType (runOps cfg ops) r.ty) ∧
    (∀ id, (¬ ∃ r ∈ dir ops, r.id = id) →
      (∀ m, m ∉ stopped ops → ∀ a, getByID cfg (runOps cfg ops) m id ≠ .ok a) ∧
      ∀ ty a, a ∈ getByType (runOps cfg ops) ty → a.actorId ≠ id) :=
  ⟨fun _ hr => refines_found (refines_run hd ops hl) hr,
   fun _ hid => refines_not_found (refines_run hd ops hl) hid⟩

/-- C32: `Register` succeeds iff id and type are given and the id is not registered, `Unregister` iff
the id is registered. -/
theorem C32_results (hd : DistinctNodes cfg) (ops : List Op) (hl : LegalOps own ops) (n : Nat)
    (hn : n ∉ stopped ops) (ty id : String) (w : Int) (ho : own id = n) :
    ((register cfg none (runOps cfg ops) n ty id w).2 = true ↔
      id ≠ "" ∧ ty ≠ "" ∧ ¬ ∃ r ∈ dir ops, r.id = id) ∧
    ((unregister cfg none (runOps cfg ops) n id w).2 = true ↔ ∃ r ∈ dir ops, r.id = id) := by
  have hR := refines_run hd ops hl
  constructor
  · simp only [register]
    by_cases he : id = "" ∨ ty = ""
    · rw [if_pos he]
      rcases he with h | h <;> simp [h]
    · rw [if_neg he]
      rw [not_or] at he
      have hi : (runOps cfg ops).idmap n id = true ↔ ∃ r ∈ dir ops, r.id = id := by
        rw [hR.idmap n hn id]
        constructor
        · rintro ⟨r, hr, h, -⟩; exact ⟨r, hr, h⟩
        · rintro ⟨r, hr, h⟩
          exact ⟨r, hr, h, by rw [← ho, ← h, (hR.wf r hr).2.2.1]⟩
      by_cases hx : (runOps cfg ops).idmap n id = true
      · rw [if_pos hx]; simp [hi.1 hx]
      · rw [if_neg hx]
        simp only [true_iff]
        exact ⟨he.1, he.2, fun h => hx (hi.2 h)⟩
  · simp only [unregister]
    by_cases he : id = ""
    · rw [if_pos he]
      simp only [Bool.false_eq_true, false_iff]
      rintro ⟨r, hr, h⟩; exact (hR.wf r hr).1 (h.trans he)
    · rw [if_neg he]
      cases hg : (runOps cfg ops).redis.ids id with
      | none =>
        simp only [Bool.false_eq_true, false_iff]
        rintro ⟨r, hr, h⟩
        have := (hR.ids id (r.addr cfg)).2 ⟨r, hr, h, rfl⟩
        rw [hg] at this; cases this
      | some a =>
        simp only [true_iff]
        obtain ⟨r, hr, h, -⟩ := (hR.ids id a).1 hg
        exact ⟨r, hr, h⟩

/-- C32, on histories: once `Register(ty, id)` on node `n` has returned nil, every lookup gives that
node's address until the id is unregistered or the node cleared, whatever else happens. -/
theorem C32_registered_is_found (hd : DistinctNodes cfg) (pre post : List Op) (n : Nat)
    (ty id : String) (w : Int) (hl : LegalOps own (pre ++ .register n ty id w :: post))
    (hret : (register cfg none (runOps cfg pre) n ty id w).2 = true)
    (hu : ∀ m v, .unregister m id v ∉ post) (hc : .clear n ∉ post) :
    let ops := pre ++ .register n ty id w :: post
    (∀ m, m ∉ stopped ops → ∃ a, getByID cfg (runOps cfg ops) m id = .ok a ∧ a.actorId = id ∧
      a.node = (cfg n).nodeID ∧ a.ip = (cfg n).ip ∧ a.port = (cfg n).port) ∧
    (⟨id, ty, (cfg n).nodeID, (cfg n).ip, (cfg n).port⟩ : Addr) ∈ getByType (runOps cfg ops) ty := by
  have hlp : LegalOps own pre := fun a o b e => hl a o (b ++ .register n ty id w :: post) (by simp [e])
  have hop := hl pre _ post rfl
  have hr : (⟨id, ty, n, w⟩ : Reg) ∈ dir (pre ++ .register n ty id w :: post) := by
    rw [dir_append, List.foldl_cons]
    refine mem_foldl_dirStep post _ ?_ hu hc
    have := ((C32_results hd pre hlp n hop.1 ty id w hop.2).1).1 hret
    simp only [dirStep]
    rw [if_neg (by rintro (h | h | h); exact this.1 h; exact this.2.1 h; exact this.2.2 h)]
    simp
  exact (C32_lookup_exact hd _ hl).1 _ hr

/-- C32, on histories: after `Unregister(id)` no lookup returns the id until it is registered again. -/
theorem C32_unregistered_is_gone (hd : DistinctNodes cfg) (pre post : List Op) (n : Nat)
    (id : String) (w : Int) (hl : LegalOps own (pre ++ .unregister n id w :: post))
    (hr : ∀ m ty v, .register m ty id v ∉ post) :
    let ops := pre ++ .unregister n id w :: post
    (∀ m, m ∉ stopped ops → ∀ a, getByID cfg (runOps cfg ops) m id ≠ .ok a) ∧
    ∀ ty a, a ∈ getByType (runOps cfg ops) ty → a.actorId ≠ id := by
  refine (C32_lookup_exact hd _ hl).2 id ?_
  rw [dir_append, List.foldl_cons]
  refine not_mem_foldl_dirStep post _ ?_ hr
  rintro ⟨r, hr, h⟩
  simp only [dirStep, List.mem_filter] at hr
  simp [h] at hr

/-- The rules are followed by `exOps`, where "x" and "z" are registered at the end and "y" is not. -/
example : (dir exOps).map (·.id) = ["x", "z"] ∧
    getByID exCfg (runOps exCfg exOps) 1 "x" = .ok ⟨"x", "t", "a", "10.0.0.1", 0⟩ ∧
    getByID exCfg (runOps exCfg exOps) 1 "y" = .error .unknownActor := by decide +kernel

example : ∃ a, getByID exCfg (runOps exCfg exOps) 7 "x" = .ok a ∧ a.actorId = "x" ∧
    a.node = (exCfg 0).nodeID ∧ a.ip = (exCfg 0).ip ∧ a.port = (exCfg 0).port :=
  (C32_registered_is_found (own := exOwn) exCfg_distinct [] (exOps.drop 1) 0 "t" "x" 3 exOps_legal
    (by decide +kernel) (by simp [exOps]) (by simp [exOps])).1 7 (by simp [exOps, stopped])

/-! ### C33 -/

/-- C33: the recorded load of a node is the sum of the weights of the actors registered by it, in total
and per type. This is the part that holds: an actor must be unregistered with the weight it was
registered with. -/
theorem C33_load_is_sum_partial (hd : DistinctNodes cfg) (ops : List Op) (hl : LegalOps own ops)
    (n : Nat) :
    (totalWeight (runOps cfg ops) (cfg n).nodeID).getD 0 = weightOf (dir ops) (·.node = n) ∧
    ∀ ty, (hget (.actor ty) ((runOps cfg ops).redis.load (cfg n).nodeID)).getD 0 =
      weightOf (dir ops) fun r => r.node = n ∧ r.ty = ty := by
  have hR := refines_run hd ops hl
  refine ⟨?_, fun ty => ?_⟩
  · rw [totalWeight, hR.load n .total]
    rw [show counts n .total = fun r => decide (r.node = n) from by funext r; simp [counts]]
  · rw [hR.load n (.actor ty)]
    rw [show counts n (.actor ty) = fun r => decide (r.node = n ∧ r.ty = ty) from by
      funext r; simp [counts]]

/-- C33 fails if the weights differ: then the load stays wrong (`Unregister` takes the weight from its
caller). -/
theorem C33_load_is_sum_refuted : ∃ ops : List Op, dir ops = [] ∧
    totalWeight (runOps exCfg ops) (exCfg 0).nodeID = some 2 :=
  ⟨[.register 0 "t" "x" 3, .unregister 0 "x" 1], by decide +kernel⟩

example : totalWeight (runOps exCfg exOps) "a" = some 3 ∧
    totalWeight (runOps exCfg exOps) "aa" = some 5 := by decide +kernel

/-! ### C34 -/

/-- C34: after `Clear` on node `n` no other node's lookup returns an actor of `n`, the load and node
records of `n` are gone, and everything of the other nodes is unchanged. This is the part that holds:
lookups on `n` itself are excepted (see `C34_local_lookup_refuted`). -/
theorem C34_clear_partial (hd : DistinctNodes cfg) (ops : List Op) (hl : LegalOps own ops) (n : Nat) :
    let W := runOps cfg ops
    let W' := clear cfg W n
    (∀ m, m ≠ n → m ∉ stopped ops → ∀ id a, getByID cfg W' m id = .ok a → a.node ≠ (cfg n).nodeID) ∧
    (∀ ty a, a ∈ getByType W' ty → a.node ≠ (cfg n).nodeID) ∧
    W'.redis.load (cfg n).nodeID = [] ∧ W'.redis.nodes (cfg n).nodeID = none ∧
    (∀ r ∈ dir ops, r.node ≠ n → W'.redis.ids r.id = W.redis.ids r.id) ∧
    (∀ ty, getByType W' ty = (getByType W ty).filter (·.node ≠ (cfg n).nodeID)) ∧
    (∀ k, k ≠ (cfg n).nodeID → W'.redis.load k = W.redis.load k ∧ W'.redis.nodes k = W.redis.nodes k) ∧
    W'.idmap = W.idmap := by
  have hR := refines_run hd ops hl
  have hR' := refines_clear hd hR n
  have hcl := clear_redis cfg (runOps cfg ops) n
  simp only at hcl ⊢
  obtain ⟨h1, h2, h3, h4⟩ := hcl
  have hnode : ∀ r ∈ dirStep (dir ops) (.clear n), (cfg r.node).nodeID ≠ (cfg n).nodeID := by
    intro r hr e
    have := (List.mem_filter.1 hr).2
    simp only [ne_eq, decide_not, Bool.not_eq_true', decide_eq_false_iff_not] at this
    exact this (hd _ _ e)
  refine ⟨?_, ?_, ?_, ?_, ?_, ?_, ?_, rfl⟩
  · intro m hmn hms id a ha e
    by_cases hex : ∃ r ∈ dirStep (dir ops) (.clear n), r.id = id
    · obtain ⟨r, hr, rfl⟩ := hex
      obtain ⟨b, hb, -, hb', -⟩ := (refines_found hR' hr).1 m (by simp [hmn, hms])
      rw [ha] at hb; cases hb
      exact hnode r hr (hb'.symm.trans e)
    · exact (refines_not_found hR' hex).1 m (by simp [hmn, hms]) a ha
  · intro ty a ha e
    obtain ⟨r, hr, -, rfl⟩ := (hR'.tys ty a).1 ha
    exact hnode r hr e
  · rw [h4, set_same]
  · rw [h3, set_same]
  · intro r hr hn
    have hr' : r ∈ dirStep (dir ops) (.clear n) := by
      simp only [dirStep, List.mem_filter]; exact ⟨hr, by simpa using hn⟩
    rw [(hR'.ids r.id (r.addr cfg)).2 ⟨r, hr', rfl, rfl⟩, (hR.ids r.id (r.addr cfg)).2 ⟨r, hr, rfl, rfl⟩]
  · intro ty
    simp only [getByType]
    rw [h2]
    apply List.filter_congr
    intro a ha
    obtain ⟨r, hr, ht, rfl⟩ := (hR.tys ty a).1 ha
    have : (ty, r.addr cfg) ∈ clearPairs (runOps cfg ops).redis (cfg n).nodeID ↔
        (r.addr cfg).node = (cfg n).nodeID := by
      rw [mem_clearPairs]
      constructor
      · exact fun h => h.2.2
      · intro h
        have := (hR.fields r hr).1
        rw [ht, show (cfg r.node).nodeID = (cfg n).nodeID from h] at this
        exact ⟨this, ha, h⟩
    simp only [this, ne_eq]
  · intro k hk
    rw [h3, h4, set_apply, set_apply, if_neg hk, if_neg hk]; exact ⟨rfl, rfl⟩

/-- C34 fails for lookups on the cleared node: `Clear` leaves the `IDMap`, so `GetByID` still returns
the actor. -/
theorem C34_local_lookup_refuted : ∃ (ops : List Op), LegalOps exOwn ops ∧
    ∃ a, getByID exCfg (clear exCfg (runOps exCfg ops) 0) 0 "x" = .ok a ∧
      a.node = (exCfg 0).nodeID :=
  ⟨exOps, exOps_legal, ⟨"x", "", "a", "10.0.0.1", 0⟩, by decide +kernel⟩

example : (getByType (clear exCfg (runOps exCfg exOps) 0) "t").map (·.actorId) = ["z"] := by
  decide +kernel

/-! ### C35 -/

theorem maxInt_eq : maxInt = 2 ^ 63 - 1 := rfl

/-- C35: the address returned is one of the sampled candidates and its node has the least load among
those that are readable; the lookup fails iff no candidate has a readable load below the largest int.
This is the part that holds (see `C35_max_load_refuted`). -/
theorem C35_wildcard_least_partial (weight : String → Option Int) (sample : List Addr) :
    (∀ a, wildcard weight sample = .ok a → a ∈ sample ∧ ∃ w, weight a.node = some w ∧
      ∀ b ∈ sample, ∀ v, weight b.node = some v → w ≤ v) ∧
    ((∃ e, wildcard weight sample = .error e) ↔
      ∀ b ∈ sample, ∀ w, weight b.node = some w → 2 ^ 63 - 1 ≤ w) := by
  rw [← maxInt_eq]
  obtain ⟨h1, h2, h3⟩ := wildcardLoop_spec weight sample maxInt Addr.zero
  unfold wildcard
  by_cases hl : sample.length = 0
  · rw [if_pos hl, List.length_eq_zero_iff.1 hl]; simp
  rw [if_neg hl]
  generalize wildcardLoop weight sample (maxInt, Addr.zero) = r at *
  by_cases hm : r.1 = maxInt
  · simp only [if_pos hm]
    refine ⟨fun a h => by simp at h, ⟨fun _ b hb w hw => ?_, fun _ => ⟨_, rfl⟩⟩⟩
    have := h2 b hb w hw; omega
  · simp only [if_neg hm]
    rcases h3 with h | ⟨h, h', h''⟩
    · rw [h] at hm; exact absurd rfl hm
    · refine ⟨fun a ha => ?_, ⟨fun ⟨e, he⟩ => by simp at he, fun hall => ?_⟩⟩
      · simp only [Except.ok.injEq] at ha; subst ha
        exact ⟨h', r.1, h'', h2⟩
      · have := hall r.2 h' r.1 h''; omega

/-- C35: with at most ten actors of the type the least is over all of them. -/
theorem C35_least_over_all (weight : String → Option Int) (members sample : List Addr)
    (hs : IsSample members sample) (h10 : members.length ≤ 10) (a : Addr)
    (ha : wildcard weight sample = .ok a) :
    a ∈ members ∧ ∃ w, weight a.node = some w ∧
      ∀ b ∈ members, ∀ v, weight b.node = some v → w ≤ v := by
  obtain ⟨h1, w, h2, h3⟩ := (C35_wildcard_least_partial weight sample).1 a ha
  refine ⟨hs.2.1 a h1, w, h2, fun b hb v hv => h3 b ?_ v hv⟩
  have hlen : sample.length = members.length := by rw [hs.2.2]; omega
  by_cases h : b ∈ sample
  · exact h
  · have : (b :: sample).length ≤ members.length :=
      (List.nodup_cons.2 ⟨h, hs.1⟩).length_le_of_subset fun x hx => by
        rcases List.mem_cons.1 hx with rfl | hx
        · exact hb
        · exact hs.2.1 x hx
    rw [List.length_cons] at this; omega

/-- C35, in the worlds that the nodes reach: if an actor of the type is registered and the loads are
below the largest int, the lookup succeeds for every sample, and gives a registered actor of the type. -/
theorem C35_wildcard_succeeds (hd : DistinctNodes cfg) (ops : List Op) (hl : LegalOps own ops)
    (ty : String) (sample : List Addr) (hs : IsSample (getByType (runOps cfg ops) ty) sample)
    (hex : ∃ r ∈ dir ops, r.ty = ty)
    (hw : ∀ k w, totalWeight (runOps cfg ops) k = some w → w < 2 ^ 63 - 1) :
    ∃ r ∈ dir ops, r.ty = ty ∧ wildcard (totalWeight (runOps cfg ops)) sample = .ok (r.addr cfg) := by
  have hR := refines_run hd ops hl
  have hmem : ∀ a ∈ sample, ∃ r ∈ dir ops, r.ty = ty ∧ r.addr cfg = a :=
    fun a ha => (hR.tys ty a).1 (hs.2.1 a ha)
  cases hr : wildcard (totalWeight (runOps cfg ops)) sample with
  | ok a =>
    obtain ⟨r, hr', ht, rfl⟩ := hmem a ((C35_wildcard_least_partial _ _).1 a hr).1
    exact ⟨r, hr', ht, rfl⟩
  | error e =>
    exfalso
    obtain ⟨r0, hr0, ht0⟩ := hex
    have hpos : 0 < sample.length := by
      have : 0 < (getByType (runOps cfg ops) ty).length :=
        List.length_pos_of_mem ((hR.tys ty (r0.addr cfg)).2 ⟨r0, hr0, ht0, rfl⟩)
      rw [hs.2.2]; omega
    obtain ⟨a, ha⟩ := List.exists_mem_of_length_pos hpos
    obtain ⟨r, hr', -, rfl⟩ := hmem a ha
    have hall := ((C35_wildcard_least_partial _ _).2).1 ⟨e, hr⟩
    cases hx : totalWeight (runOps cfg ops) (cfg r.node).nodeID with
    | none => exact (hR.fields r hr').2 hx
    | some w =>
      have h1 := hall _ ha w hx
      have h2 := hw _ w hx
      omega

example : wildcard (totalWeight (runOps exCfg exOps)) (getByType (runOps exCfg exOps) "t") =
    .ok ⟨"x", "t", "a", "10.0.0.1", 0⟩ := by decide +kernel

example : IsSample (getByType (runOps exCfg exOps) "t") (getByType (runOps exCfg exOps) "t") :=
  ⟨by decide +kernel, fun _ h => h, by decide +kernel⟩

/-- C35 fails at the largest int: a candidate with this load is readable, but the lookup fails. -/
theorem C35_max_load_refuted : ∃ (weight : String → Option Int) (sample : List Addr),
    (∃ b ∈ sample, weight b.node ≠ none) ∧ ∃ e, wildcard weight sample = .error e :=
  ⟨fun _ => some (2 ^ 63 - 1), [⟨"x", "t", "a", "", 1⟩], by simp, .noActors, rfl⟩

/-! ### C36 -/

/-- C36: if Go iterates over the map twice in the same order, the node returned is registered and its
load is the least. This is the part that holds (see `C36_two_orders_refuted`). -/
theorem C36_least_loaded_partial (weight : String → Option Int) (nodes : String → Option Addr)
    (order : List (String × Addr)) (ho : IsOrder nodes order) (a : Addr)
    (ha : lowWeightNode weight order order = .ok a) :
    ∃ k w, nodes k = some a ∧ weight k = some w ∧
      ∀ k' a' v, nodes k' = some a' → weight k' = some v → w ≤ v := by
  simp only [lowWeightNode] at ha
  split at ha
  · cases ha
  · split at ha
    · cases ha
    · rename_i ws hws
      have hspec := lowLoop_spec weight order ws (allSome_eq_some.1 hws) maxInt Addr.zero
      simp only at hspec
      generalize lowLoop order ws (maxInt, Addr.zero) = r at *
      obtain ⟨h1, h2, h3⟩ := hspec
      split at ha
      · cases ha
      · rename_i hne
        simp only [Except.ok.injEq] at ha; subst ha
        rcases h3 with h | ⟨k, hk, hw⟩
        · rw [h] at hne; exact absurd rfl hne
        · refine ⟨k, r.1, (ho.2 k r.2).1 hk, hw, fun k' a' v hk' hv => ?_⟩
          exact h2 (k', a') ((ho.2 k' a').2 hk') v hv

/-- C36: it succeeds if there is a node, all loads are readable and below the largest int, and no node
has an empty name. -/
theorem C36_succeeds (weight : String → Option Int) (nodes : String → Option Addr)
    (order : List (String × Addr)) (ho : IsOrder nodes order) (hne : ∃ k a, nodes k = some a)
    (hw : ∀ k a, nodes k = some a → ∃ w, weight k = some w ∧ w < 2 ^ 63 - 1)
    (hname : ∀ k a, nodes k = some a → a.node ≠ "") :
    ∃ a, lowWeightNode weight order order = .ok a := by
  rw [← maxInt_eq] at hw
  obtain ⟨k0, a0, h0⟩ := hne
  have hmem := (ho.2 k0 a0).2 h0
  have hlen : ¬ order.length = 0 := fun h => by
    rw [List.length_eq_zero_iff.1 h] at hmem; cases hmem
  have hall : ∀ l : List (String × Addr), (∀ e ∈ l, e ∈ order) →
      ∃ ws, allSome (l.map fun e => weight e.1) = some ws := by
    intro l
    induction l with
    | nil => exact fun _ => ⟨[], rfl⟩
    | cons e l ih =>
      intro h
      obtain ⟨ws, hws⟩ := ih fun x hx => h x (List.mem_cons_of_mem _ hx)
      obtain ⟨w, hw', -⟩ := hw e.1 e.2 ((ho.2 _ _).1 (h e List.mem_cons_self))
      exact ⟨w :: ws, by simp [allSome, hw', hws]⟩
  obtain ⟨ws, hws⟩ := hall order fun _ h => h
  obtain ⟨h1, h2, h3⟩ := lowLoop_spec weight order ws (allSome_eq_some.1 hws) maxInt Addr.zero
  simp only [lowWeightNode, if_neg hlen, hws]
  generalize lowLoop order ws (maxInt, Addr.zero) = r at *
  rcases h3 with h | ⟨k, hk, hw'⟩
  · obtain ⟨w, hw', hlt⟩ := hw k0 a0 h0
    have := h2 _ hmem w hw'
    rw [h] at this; simp only at this; omega
  · rw [if_neg (hname k r.2 ((ho.2 _ _).1 hk))]; exact ⟨_, rfl⟩

/-- C36: whatever the two orders, the result is a registered node. -/
theorem C36_registered (weight : String → Option Int) (nodes : String → Option Addr)
    (order1 order2 : List (String × Addr)) (ho : IsOrder nodes order2) (a : Addr)
    (ha : lowWeightNode weight order1 order2 = .ok a) : ∃ k, nodes k = some a := by
  simp only [lowWeightNode] at ha
  split at ha
  · cases ha
  · split at ha
    · cases ha
    · rename_i ws _
      split at ha
      · cases ha
      · rename_i hne
        simp only [Except.ok.injEq] at ha
        rcases lowLoop_mem order2 ws (maxInt, Addr.zero) with h | ⟨k, hk⟩
        · rw [h] at hne; exact absurd rfl hne
        · rw [ha] at hk; exact ⟨k, (ho.2 _ _).1 hk⟩

/-- The node map of `exOps`, in two orders. -/
def exOrder1 : List (String × Addr) := [("a", nodeAddr exCfg 0), ("aa", nodeAddr exCfg 1)]
def exOrder2 : List (String × Addr) := [("aa", nodeAddr exCfg 1), ("a", nodeAddr exCfg 0)]

theorem exOrder_ok : IsOrder (runOps exCfg exOps).redis.nodes exOrder1 ∧
    IsOrder (runOps exCfg exOps).redis.nodes exOrder2 := by
  have hn : ∀ k, (runOps exCfg exOps).redis.nodes k =
      if k = "aa" then some (nodeAddr exCfg 1) else if k = "a" then some (nodeAddr exCfg 0) else none := by
    intro k
    have : (runOps exCfg exOps).redis.nodes = set (set (set (fun _ => none) "a" (some (nodeAddr exCfg 0)))
        "aa" (some (nodeAddr exCfg 1))) "a" (some (nodeAddr exCfg 0)) := rfl
    rw [this]
    by_cases h1 : k = "a"
    · subst h1; rfl
    · by_cases h2 : k = "aa"
      · subst h2; rfl
      · simp [set_apply, h1, h2]
  have hne : ("a" : String) ≠ "aa" := by decide
  refine ⟨⟨by decide, fun k a => ?_⟩, ⟨by decide, fun k a => ?_⟩⟩ <;>
  · rw [hn]
    by_cases h1 : k = "aa"
    · subst h1; simp [exOrder1, exOrder2, hne.symm, eq_comm]
    · by_cases h2 : k = "a"
      · subst h2; simp [exOrder1, exOrder2, eq_comm]
      · simp [exOrder1, exOrder2, h1, h2]

/-- C36 fails: Go may iterate over the map in two different orders, and then the loads are attributed
to the wrong nodes. Node "a" has load 3, node "aa" has load 5, and "aa" is returned. -/
theorem C36_two_orders_refuted : ∃ order1 order2,
    IsOrder (runOps exCfg exOps).redis.nodes order1 ∧
    IsOrder (runOps exCfg exOps).redis.nodes order2 ∧
    lowWeightNode (totalWeight (runOps exCfg exOps)) order1 order2 = .ok (nodeAddr exCfg 1) ∧
    totalWeight (runOps exCfg exOps) "a" = some 3 ∧ totalWeight (runOps exCfg exOps) "aa" = some 5 :=
  ⟨exOrder1, exOrder2, exOrder_ok.1, exOrder_ok.2, by decide +kernel⟩

example : lowWeightNode (totalWeight (runOps exCfg exOps)) exOrder1 exOrder1 =
    .ok (nodeAddr exCfg 0) := by decide +kernel

/-! ### C37 -/

/-- C37, the part that holds: a Register that returns nil has written all its records; a Register that
is refused has written nothing. -/
theorem C37_success_complete_partial (W : World) (n : Nat) (ty id : String) (w : Int) :
    let W' := (register cfg none W n ty id w).1
    ((register cfg none W n ty id w).2 = true →
      W'.redis.ids id = some ⟨id, ty, (cfg n).nodeID, (cfg n).ip, (cfg n).port⟩ ∧
      (⟨id, ty, (cfg n).nodeID, (cfg n).ip, (cfg n).port⟩ : Addr) ∈ W'.redis.tys ty ∧
      W'.redis.nodes (cfg n).nodeID = some ⟨"", "", (cfg n).nodeID, (cfg n).ip, (cfg n).port⟩ ∧
      hget .total (W'.redis.load (cfg n).nodeID) =
        some ((totalWeight W (cfg n).nodeID).getD 0 + w) ∧
      hget (.actor ty) (W'.redis.load (cfg n).nodeID) =
        some ((hget (.actor ty) (W.redis.load (cfg n).nodeID)).getD 0 + w) ∧
      W'.idmap n id = true) ∧
    ((register cfg none W n ty id w).2 = false → W' = W) := by
  simp only [register]
  split
  · simp
  · split
    · simp
    · simp only [registerCmds, Redis.pipe, List.foldl_cons, List.foldl_nil, Redis.run, set_same,
        hget_hincrBy, totalWeight, Bool.true_eq_false, false_imp_iff, and_true, true_imp_iff, if_true,
        reduceCtorEq, if_false, true_and, addrOf, nodeAddr]
      split
      · rename_i h; exact h
      · simp

/-- C37 fails: whenever the connection breaks after the first command of the pipeline, Register
returns an error but the record of the actor is left behind; the other records are missing if it
breaks right then. -/
theorem C37_all_or_nothing_refuted (cfg : Nat → NodeCfg) (n : Nat) (ty id : String) (w : Int)
    (hid : id ≠ "") (hty : ty ≠ "") :
    (∀ k, 1 ≤ k → (register cfg (some k) World.init n ty id w).2 = false ∧
      (register cfg (some k) World.init n ty id w).1.redis.ids id ≠ none) ∧
    getByType (register cfg (some 1) World.init n ty id w).1 ty = [] := by
  have hc : ¬ (id = "" ∨ ty = "") := by simp [hid, hty]
  refine ⟨fun k hk => ?_, ?_⟩
  · obtain ⟨k, rfl⟩ : ∃ j, k = j + 1 := ⟨k - 1, by omega⟩
    simp only [register, if_neg hc, World.init, Bool.false_eq_true, if_false, true_and]
    have : ∀ (cs : List Cmd) (r : Redis), (∀ c ∈ cs, ∀ i, c ≠ .hdelId i) → r.ids id ≠ none →
        (r.pipe cs).ids id ≠ none := by
      intro cs
      induction cs with
      | nil => exact fun r _ h => h
      | cons c cs ih =>
        intro r hn h
        refine ih (r.run c) (fun x hx => hn x (List.mem_cons_of_mem _ hx)) ?_
        cases c with
        | hdelId i => exact absurd rfl (hn _ List.mem_cons_self i)
        | hsetId i a =>
          simp only [Redis.run, set_apply]
          split
          · simp
          · exact h
        | _ => exact h
    rw [registerCmds, List.take_succ_cons]
    refine this _ (Redis.run _ (.hsetId id (addrOf cfg n ty id))) ?_ (by simp [Redis.run])
    intro c hc' i e
    have := List.mem_of_mem_take hc'
    subst e
    simp at this
  · simp [register, if_neg hc, World.init, registerCmds, Redis.pipe, Redis.run, getByType]

example : (register exCfg none World.init 0 "t" "x" 3).2 = true := by decide +kernel

/-- C37, with a connection that may break: whatever the fault, a Register or an Unregister that returns
nil had no fault, and one that returns an error leaves the local map of every node as it was. -/
theorem C37_fault_reported (cfg : Nat → NodeCfg) (fault : Option Nat) (W : World) (n : Nat)
    (ty id : String) (w : Int) :
    ((register cfg fault W n ty id w).2 = true → fault = none) ∧
    ((register cfg fault W n ty id w).2 = false →
      (register cfg fault W n ty id w).1.idmap = W.idmap) ∧
    ((unregister cfg fault W n id w).2 = true → fault = none) ∧
    ((unregister cfg fault W n id w).2 = false →
      (unregister cfg fault W n id w).1.idmap = W.idmap) := by
  refine ⟨?_, ?_, ?_, ?_⟩
  · unfold register
    split
    · simp
    · split
      · simp
      · cases fault <;> simp
  · unfold register
    split
    · simp
    · split
      · simp
      · cases fault <;> simp
  · unfold unregister
    split
    · simp
    · split
      · simp
      · cases fault <;> simp
  · unfold unregister
    split
    · simp
    · split
      · simp
      · cases fault <;> simp

/-- C37 for Unregister, the part that holds: an Unregister that returns nil has removed the record of the
actor and its entry in the list of its type, has taken the weight off both counters of the node, and has
forgotten the id locally; one that is refused has changed nothing. -/
theorem C37_unregister_complete_partial (cfg : Nat → NodeCfg) (W : World) (n : Nat) (id : String) (w : Int) :
    let W' := (unregister cfg none W n id w).1
    ((unregister cfg none W n id w).2 = true →
      ∃ a, W.redis.ids id = some a ∧ W'.redis.ids id = none ∧ a ∉ W'.redis.tys a.actorTy ∧
        hget .total (W'.redis.load (cfg n).nodeID) =
          some ((totalWeight W (cfg n).nodeID).getD 0 - w) ∧
        hget (.actor a.actorTy) (W'.redis.load (cfg n).nodeID) =
          some ((hget (.actor a.actorTy) (W.redis.load (cfg n).nodeID)).getD 0 - w) ∧
        W'.idmap n id = false) ∧
    ((unregister cfg none W n id w).2 = false → W' = W) := by
  simp only [unregister]
  split
  · simp
  · split
    · simp
    · rename_i a ha
      refine ⟨fun _ => ⟨a, ha, ?_⟩, by simp⟩
      simp only [unregisterCmds, Redis.pipe, List.foldl_cons, List.foldl_nil, Redis.run, set_same,
        hget_hincrBy, totalWeight]
      refine ⟨trivial, by simp, by simp [Int.sub_eq_add_neg], by simp [Int.sub_eq_add_neg], by simp⟩

/-- C37 fails for Unregister as well, and cannot be repaired by trying again: when the connection breaks
after the first command, the record of the actor is gone but the actor is still in the list of its type and
its weight is still on the node; from then on Unregister of that id is refused, and the node on which it was
registered can neither register the id again nor stop answering for it. -/
theorem C37_unregister_stuck_refuted (cfg : Nat → NodeCfg) (n : Nat) (ty id : String) (w : Int)
    (hid : id ≠ "") (hty : ty ≠ "") :
    let W := (register cfg none World.init n ty id w).1
    let W' := (unregister cfg (some 1) W n id w).1
    (unregister cfg (some 1) W n id w).2 = false ∧
    W'.redis.ids id = none ∧ getByType W' ty = [⟨id, ty, (cfg n).nodeID, (cfg n).ip, (cfg n).port⟩] ∧
    totalWeight W' (cfg n).nodeID = some w ∧
    (∀ m fault v, unregister cfg fault W' m id v = (W', false)) ∧
    (∀ fault ty' v, register cfg fault W' n ty' id v = (W', false)) ∧
    (∃ a, getByID cfg W' n id = .ok a) ∧
    (∀ m, m ≠ n → getByID cfg W' m id = .error .unknownActor) := by
  simp [register, unregister, hty, hid, World.init, registerCmds, unregisterCmds, Redis.pipe,
    Redis.run, getByType, getByID, totalWeight, addrOf, hincrBy, hget]

example : (unregister exCfg none (register exCfg none World.init 0 "t" "x" 3).1 0 "x" 3).2 = true := by
  decide +kernel

/-! ### C38 -/

/-- C38 fails: two nodes register the same id, both calls succeed, and both are listed. -/
theorem C38_two_nodes_refuted :
    (register exCfg none World.init 0 "t" "x" 1).2 = true ∧
    (register exCfg none (runOps exCfg [.register 0 "t" "x" 1]) 1 "t" "x" 1).2 = true ∧
    (getByType (runOps exCfg [.register 0 "t" "x" 1, .register 1 "t" "x" 1]) "t").map
      (fun a => (a.actorId, a.node)) = [("x", "a"), ("x", "aa")] := by decide +kernel

theorem idmap_apply (W : World) (op : Op) (n : Nat) (id : String) (h : W.idmap n id = true)
    (hop : ∀ w, op ≠ .unregister n id w) : (apply cfg W op).idmap n id = true := by
  cases op with
  | register m ty i w =>
    simp only [apply, register]
    repeat' split
    all_goals first | exact h | simp [h]
  | unregister m i w =>
    simp only [apply, unregister]
    repeat' split
    · exact h
    · exact h
    · simp only
      split
      · rename_i hx; obtain ⟨rfl, rfl⟩ := hx; exact absurd rfl (hop w)
      · exact h
  | clear m => exact h

/-- C38, the part that holds: on one node. After a Register that returned nil, the same node refuses the
id until it unregisters it itself, whatever any node does in between (also with this id). -/
theorem C38_unique_per_node_partial (pre post : List Op) (n : Nat) (ty id : String) (w : Int)
    (hret : (register cfg none (runOps cfg pre) n ty id w).2 = true)
    (hu : ∀ v, .unregister n id v ∉ post) (ty' : String) (w' : Int) (fault : Option Nat) :
    let W := runOps cfg (pre ++ .register n ty id w :: post)
    register cfg fault W n ty' id w' = (W, false) := by
  have h0 : (apply cfg (runOps cfg pre) (.register n ty id w)).idmap n id = true :=
    ((C37_success_complete_partial (runOps cfg pre) n ty id w).1 hret).2.2.2.2.2
  have h1 : ∀ (l : List Op) (W : World), W.idmap n id = true → (∀ v, .unregister n id v ∉ l) →
      (l.foldl (apply cfg) W).idmap n id = true := by
    intro l
    induction l with
    | nil => exact fun W h _ => h
    | cons op l ih =>
      intro W h hl
      exact ih _ (idmap_apply W op n id h fun v e => hl v (by rw [e]; exact List.mem_cons_self))
        fun v hv => hl v (List.mem_cons_of_mem _ hv)
  have h2 : (runOps cfg (pre ++ .register n ty id w :: post)).idmap n id = true := by
    have := h1 post _ h0 hu
    simpa [runOps, List.foldl_append] using this
  simp only [register]
  split
  · rfl
  · first | rfl | rw [if_pos h2]

/-- C38, the part that holds: nodes that use distinct ids never have two records of one id. -/
theorem C38_distinct_ids_partial (hd : DistinctNodes cfg) (ops : List Op) (hl : LegalOps own ops)
    (ty ty' : String) (a a' : Addr) (ha : a ∈ getByType (runOps cfg ops) ty)
    (ha' : a' ∈ getByType (runOps cfg ops) ty') (he : a.actorId = a'.actorId) : a = a' := by
  have hR := refines_run hd ops hl
  obtain ⟨r, hr, -, rfl⟩ := (hR.tys ty a).1 ha
  obtain ⟨s, hs, -, rfl⟩ := (hR.tys ty' a').1 ha'
  rw [reg_unique hR.nodup hr hs he]

end Braid.AddressBook
