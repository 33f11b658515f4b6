import Verif.System.Props

/-
C24 and C25: how many hops a call with `?` takes, and actors that have a symbol as their id.
-/
namespace Braid.System
open AddressBook Spec

/-- Node `m` hosts actors of the type, and of all nodes that do it has strictly the smallest load. -/
def Lightest (C : Cluster) (W : World) (ty : String) (m : Nat) : Prop :=
  ∃ w, totalWeight W (C.cfg m).nodeID = some w ∧ w < 2 ^ 63 - 1 ∧ (∃ id, Hosts C m id ty) ∧
    ∀ n id v, n ≠ m → Hosts C n id ty → totalWeight W (C.cfg n).nodeID = some v → w < v

/-- With at most ten actors of the type, `?` is resolved to one of the lightest node. -/
theorem wildcard_lightest {C : Cluster} {W : World} (hc : Consistent C W) {ty : String} {m : Nat} (hl : Lightest C W ty m)
    (h10 : (W.redis.tys ty).length ≤ 10) {n : Nat} {o : Oracle} (ho : o.Valid C W n ty) :
    ∃ id, wildcard (totalWeight W) o.sample = .ok (address C m ty id) ∧ Hosts C m id ty := by
  obtain ⟨w, hw, hmax, ⟨id0, hid0⟩, hother⟩ := hl
  have hin : address C m ty id0 ∈ W.redis.tys ty := (hc.tys ty _).2 ⟨m, id0, hid0, rfl⟩
  have hmem : ∀ b ∈ W.redis.tys ty, b ∈ o.sample := by
    intro b hb
    have hlen : o.sample.length = (W.redis.tys ty).length := by rw [ho.1.2.2]; omega
    by_cases h : b ∈ o.sample
    · exact h
    · have : (b :: o.sample).length ≤ (W.redis.tys ty).length :=
        (List.nodup_cons.2 ⟨h, ho.1.1⟩).length_le_of_subset fun x hx => by
          rcases List.mem_cons.1 hx with rfl | hx
          · exact hb
          · exact ho.1.2.1 x hx
      rw [List.length_cons] at this; omega
  cases hr : wildcard (totalWeight W) o.sample with
  | error e =>
    have := (C35_wildcard_least_partial (totalWeight W) o.sample).2.1 ⟨e, hr⟩ _ (hmem _ hin) w hw
    omega
  | ok a =>
    obtain ⟨h1, v, h2, h3⟩ := C35_least_over_all (totalWeight W) _ _ ho.1 h10 a hr
    obtain ⟨k, id, hh, rfl⟩ := (hc.tys ty a).1 h1
    by_cases hk : k = m
    · subst hk; exact ⟨id, rfl, hh⟩
    · have h4 := hother k id v hk hh h2
      have h5 := h3 _ hin w hw
      omega

/-- What a node does with `?`. -/
theorem route_lightest {C : Cluster} {W : World} (hc : Consistent C W) {ty : String} {m : Nat} (hl : Lightest C W ty m)
    (h10 : (W.redis.tys ty).length ≤ 10) {n : Nat} {or : Oracle} (ho : or.Valid C W n ty) : ∃ id, Hosts C m id ty ∧
      route C W n "?" ty or = if n = m then .here id else .forward (address C m ty id) := by
  obtain ⟨id, hw, hh⟩ := wildcard_lightest hc hl h10 ho
  refine ⟨id, hh, ?_⟩
  have h0 : route C W n "?" ty or = if C.has n id then .here id else resolve C n ty (address C m ty id) := by
    simp [route, hw, address]
  rw [h0]
  by_cases hm : n = m
  · subst hm
    rw [if_pos (has_iff.2 ⟨ty, hh⟩), if_pos rfl]
  · rw [if_neg hm, if_neg, resolve_other hc hm]
    intro h
    obtain ⟨ty', h'⟩ := has_iff.1 h
    exact hm (hc.unique _ _ _ _ _ h' hh).1

/-- C25: if one node has strictly the smallest load of those with actors of the type (and there are at most ten such actors,
the size of the sample), every call with `?` is delivered to an actor of the type on that node: from there without a hop, from
any other node with exactly one. -/
theorem C25_wildcard_one_hop {C : Cluster} {W : World} (hc : Consistent C W) {ty : String} {m : Nat} (hl : Lightest C W ty m)
    (h10 : (W.redis.tys ty).length ≤ 10) {n k : Nat} {o : Outcome} (h : Travel C W "?" ty n k o) :
    ∃ id, Hosts C m id ty ∧ o = .delivered m id ∧ ((n = m ∧ k = 0) ∨ (n ≠ m ∧ k = 1)) := by
  have hroute := @route_lightest C W hc ty m hl h10
  have hstop : ∀ {n : Nat} {or : Oracle} {o : Outcome}, or.Valid C W n ty → (route C W n "?" ty or).outcome n = some o →
      n = m ∧ ∃ id, Hosts C m id ty ∧ o = .delivered m id := by
    intro n or o ho h
    obtain ⟨id, hh, hr⟩ := hroute ho
    rw [hr] at h
    by_cases hm : n = m
    · rw [if_pos hm] at h
      cases h
      exact ⟨hm, id, hh, by rw [hm]⟩
    · rw [if_neg hm] at h; cases h
  have hfwd : ∀ {n : Nat} {or : Oracle} {a : Addr}, or.Valid C W n ty → route C W n "?" ty or = .forward a →
      n ≠ m ∧ C.listen a.ip a.port = some m := by
    intro n or a ho h
    obtain ⟨id, hh, hr⟩ := hroute ho
    rw [hr] at h
    by_cases hm : n = m
    · rw [if_pos hm] at h; cases h
    · rw [if_neg hm] at h
      cases h
      exact ⟨hm, hc.listen m⟩
  cases h with
  | stop ho h1 =>
    obtain ⟨hm, id, hh, rfl⟩ := hstop ho h1
    exact ⟨id, hh, rfl, .inl ⟨hm, rfl⟩⟩
  | hop ho h1 h2 h3 =>
    obtain ⟨hm, hlis⟩ := hfwd ho h1
    rw [hlis] at h2
    cases h2
    cases h3 with
    | stop ho' h1' =>
      obtain ⟨_, id, hh, rfl⟩ := hstop ho' h1'
      exact ⟨id, hh, rfl, .inr ⟨hm, rfl⟩⟩
    | hop ho' h1' _ _ => exact absurd rfl (hfwd ho' h1').1
    | lost ho' h1' _ => exact absurd rfl (hfwd ho' h1').1
  | lost ho h1 h2 =>
    obtain ⟨_, hlis⟩ := hfwd ho h1
    rw [hlis] at h2; cases h2

/-- C25: and such a call does come to this end, from every node. -/
theorem C25_wildcard_ends {C : Cluster} {W : World} (hc : Consistent C W) {ty : String} {m : Nat} (hl : Lightest C W ty m)
    (h10 : (W.redis.tys ty).length ≤ 10) (n : Nat) :
    ∃ id, Hosts C m id ty ∧ Travel C W "?" ty n (if n = m then 0 else 1) (.delivered m id) := by
  have hv : ∀ n, (⟨W.redis.tys ty, (C.node n).actors⟩ : Oracle).Valid C W n ty := fun n =>
    ⟨⟨hc.nodup ty, fun _ h => h, by simp only; omega⟩, .refl _⟩
  obtain ⟨id, hh, hr⟩ := route_lightest hc hl h10 (hv m)
  rw [if_pos rfl] at hr
  have hlast : Travel C W "?" ty m 0 (.delivered m id) := .stop (hv m) (by rw [hr]; rfl)
  refine ⟨id, hh, ?_⟩
  by_cases hm : n = m
  · rw [if_pos hm, hm]; exact hlast
  · obtain ⟨id', _, hr'⟩ := route_lightest hc hl h10 (hv n)
    rw [if_neg hm] at hr'
    rw [if_neg hm]
    exact .hop (hv n) hr' (hc.listen m) hlast

/-- In the example cluster node 0 is lighter. -/
theorem exC_lightest : Lightest exC (runOps exCfg exOps) "t" 0 := by
  refine ⟨3, by decide +kernel, by decide, ⟨"x", by simp [Hosts, exC, exNode]⟩, ?_⟩
  intro n id v hn hh hv
  match n with
  | 0 => exact absurd rfl hn
  | 1 =>
    have : totalWeight (runOps exCfg exOps) (exC.cfg 1).nodeID = some 5 := by decide +kernel
    rw [this] at hv
    cases hv
    decide
  | n + 2 => simp [Hosts, exC, exNode] at hh

example (n k : Nat) (o : Outcome) (h : Travel exC (runOps exCfg exOps) "?" "t" n k o) : k ≤ 1 ∧ o = .delivered 0 "x" := by
  obtain ⟨id, hh, ho, hk⟩ := C25_wildcard_one_hop exC_consistent exC_lightest (by decide +kernel) h
  simp [Hosts, exC, exNode] at hh
  subst hh
  exact ⟨by omega, ho⟩

/-! ### More actors than the sample -/

/-- The ids of ten actors. -/
def tenIds (c : Char) : List String := (List.range 10).map fun i => String.ofList (List.replicate (i + 1) c)

/-- Ten actors on each of two nodes; those of node 0 are lighter. -/
def bigOps : List AddressBook.Op := (tenIds 'x').map (.register 0 "t" · 1) ++ (tenIds 'z').map (.register 1 "t" · 2)
def bigC : Cluster := { exC with node := fun n =>
  if n = 0 then ⟨(tenIds 'x').map (·, "t"), fun _ => none⟩
  else if n = 1 then ⟨(tenIds 'z').map (·, "t"), fun _ => none⟩ else ⟨[], fun _ => none⟩ }
def bigOwn (id : String) : Nat := if id ∈ tenIds 'x' then 0 else 1

theorem bigOps_legal : AddressBook.Spec.LegalOps bigOwn bigOps := by
  intro pre op post he
  have hst : ∀ l : List AddressBook.Op, (∀ o ∈ l, ∃ n a b c, o = .register n a b c) → AddressBook.Spec.stopped l = [] := by
    intro l
    induction l with
    | nil => intro _; rfl
    | cons o r ih =>
      intro h
      obtain ⟨n, a, b, c, rfl⟩ := h o (by simp)
      exact ih fun o ho => h o (List.mem_cons_of_mem _ ho)
  have hreg : ∀ o ∈ bigOps, ∃ n id w, o = .register n "t" id w ∧ bigOwn id = n := by
    intro o ho
    rcases List.mem_append.1 ho with h | h
    · obtain ⟨id, hid, rfl⟩ := List.mem_map.1 h
      exact ⟨0, id, 1, rfl, if_pos hid⟩
    · obtain ⟨id, hid, rfl⟩ := List.mem_map.1 h
      have : ∀ id ∈ tenIds 'z', bigOwn id = 1 := by decide +kernel
      exact ⟨1, id, 2, rfl, this id hid⟩
  obtain ⟨n, id, w, rfl, ho⟩ := hreg op (by rw [he]; simp)
  refine ⟨?_, ho⟩
  rw [hst pre fun o ho => ?_]
  · simp
  · obtain ⟨n, id, w, h, _⟩ := hreg o (by rw [he]; simp [ho])
    exact ⟨n, _, id, w, h⟩

theorem big_dir : AddressBook.Spec.dir bigOps = (tenIds 'x').map (⟨·, "t", 0, 1⟩) ++ (tenIds 'z').map (⟨·, "t", 1, 2⟩) := by
  decide +kernel

theorem big_consistent : Consistent bigC (runOps exCfg bigOps) := by
  refine consistent_of_ops (C := bigC) (own := bigOwn) exCfg_distinct bigOps_legal (by decide +kernel) ?_ ?_
  · intro n; simp [bigC, exC, exCfg]
  · intro n id ty
    rw [big_dir]
    have hm : (∃ r ∈ (tenIds 'x').map (⟨·, "t", 0, 1⟩) ++ (tenIds 'z').map (⟨·, "t", 1, 2⟩),
        (r : AddressBook.Spec.Reg).node = n ∧ r.id = id ∧ r.ty = ty) ↔
        (id ∈ tenIds 'x' ∧ "t" = ty ∧ 0 = n) ∨ (id ∈ tenIds 'z' ∧ "t" = ty ∧ 1 = n) := by
      constructor
      · rintro ⟨r, hr, rfl, rfl, rfl⟩
        rcases List.mem_append.1 hr with h | h
        · obtain ⟨i, hi, rfl⟩ := List.mem_map.1 h
          exact .inl ⟨hi, rfl, rfl⟩
        · obtain ⟨i, hi, rfl⟩ := List.mem_map.1 h
          exact .inr ⟨hi, rfl, rfl⟩
      · rintro (⟨hi, rfl, rfl⟩ | ⟨hi, rfl, rfl⟩)
        · exact ⟨_, List.mem_append_left _ (List.mem_map.2 ⟨id, hi, rfl⟩), rfl, rfl, rfl⟩
        · exact ⟨_, List.mem_append_right _ (List.mem_map.2 ⟨id, hi, rfl⟩), rfl, rfl, rfl⟩
    rw [hm]
    by_cases h0 : n = 0
    · subst h0; simp [Hosts, bigC]; exact ⟨fun ⟨a, h, e, h'⟩ => ⟨e ▸ h, h'⟩, fun ⟨h, h'⟩ => ⟨_, h, rfl, h'⟩⟩
    · by_cases h1 : n = 1
      · subst h1; simp [Hosts, bigC]; exact ⟨fun ⟨a, h, e, h'⟩ => ⟨e ▸ h, h'⟩, fun ⟨h, h'⟩ => ⟨_, h, rfl, h'⟩⟩
      · simp [Hosts, bigC, h0, h1, Ne.symm h0, Ne.symm h1]

theorem big_lightest : Lightest bigC (runOps exCfg bigOps) "t" 0 := by
  refine ⟨10, by decide +kernel, by decide, ⟨"x", by simp only [Hosts]; decide +kernel⟩, ?_⟩
  intro n id v hn hh hv
  by_cases h1 : n = 1
  · subst h1
    have : totalWeight (runOps exCfg bigOps) (bigC.cfg 1).nodeID = some 20 := by decide +kernel
    rw [this] at hv
    cases hv
    decide
  · simp [Hosts, bigC, hn, h1] at hh

/-- C25: ten is a limit: with more actors of the type than the sample has, there is no bound on the number of hops even if one
node is strictly the lightest. The sample may consist of actors of the other node, each time. -/
theorem C25_wildcard_sample_unbounded (k : Nat) :
    Consistent bigC (runOps exCfg bigOps) ∧ Lightest bigC (runOps exCfg bigOps) "t" 0 ∧
    Travel bigC (runOps exCfg bigOps) "?" "t" 0 (2 * k) (.delivered 0 "x") := by
  refine ⟨big_consistent, big_lightest, ?_⟩
  have hv : ∀ n m, m = 0 ∨ m = 1 →
      (⟨(tenIds (if m = 0 then 'x' else 'z')).map (address bigC m "t"), (bigC.node n).actors⟩ : Oracle).Valid bigC
        (runOps exCfg bigOps) n "t" := by
    intro n m hm
    refine ⟨?_, .refl _⟩
    have h0 : AddressBook.Spec.IsSample ((runOps exCfg bigOps).redis.tys "t") ((tenIds 'x').map (address bigC 0 "t")) :=
      ⟨by decide +kernel, by decide +kernel, by decide +kernel⟩
    have h1 : AddressBook.Spec.IsSample ((runOps exCfg bigOps).redis.tys "t") ((tenIds 'z').map (address bigC 1 "t")) :=
      ⟨by decide +kernel, by decide +kernel, by decide +kernel⟩
    rcases hm with rfl | rfl
    · exact h0
    · exact h1
  induction k with
  | zero => exact .stop (hv 0 0 (.inl rfl)) (by decide +kernel)
  | succ k ih =>
    refine .hop (m := 1) (a := address bigC 1 "t" "z") (hv 0 1 (.inr rfl)) (by decide +kernel) (by decide +kernel) ?_
    exact .hop (m := 0) (a := address bigC 0 "t" "x") (hv 1 0 (.inl rfl)) (by decide +kernel) (by decide +kernel) ih

/-! ### Symbols as ids -/

/-- The full statement of C24: a call by the id of an actor reaches it. -/
def ReachedById : Prop := ∀ (C : Cluster) (W : World), Consistent C W → ∀ n m id ty ty' k o, Hosts C m id ty' →
  Travel C W id ty n k o → o = .delivered m id

/-- A cluster with one actor, which has the id `?`. -/
def symC : Cluster := { exC with node := fun n => if n = 1 then ⟨[("?", "t")], fun _ => none⟩ else ⟨[], fun _ => none⟩ }
def symOps : List AddressBook.Op := [.register 1 "t" "?" 1]

theorem sym_consistent : Consistent symC (runOps exCfg symOps) := by
  refine consistent_of_ops (C := symC) (own := exOwn) exCfg_distinct
    (legalOps_concat (ops := []) legalOps_nil (by simp [AddressBook.Spec.Legal, AddressBook.Spec.stopped, AddressBook.Spec.opNode, exOwn]))
    (by decide) ?_ ?_
  · intro n; simp [symC, exC, exCfg]
  · intro n id ty
    have hdir : AddressBook.Spec.dir symOps = [⟨"?", "t", 1, 1⟩] := by decide +kernel
    rw [hdir]
    by_cases hn : n = 1
    · subst hn; simp [Hosts, symC, eq_comm]
    · simp [Hosts, symC, hn, Ne.symm hn]

/-- C24 is violated by the ids `?` and `~`, which `Register` accepts: the target is taken for the symbol. In every consistent
cluster a call to such an actor with a type that nobody has fails, and its own type is not asked for. -/
theorem C24_symbol_id {C : Cluster} {W : World} (hc : Consistent C W) {id ty : String} (hid : id = "?" ∨ id = "~")
    (hty : ∀ n i, ¬ Hosts C n i ty) {n k : Nat} {o : Outcome} (h : Travel C W id ty n k o) : ∃ m, o = .failed m := by
  rcases C25_symbol_type hc hid h with ⟨m, i, _, hh⟩ | h
  · exact absurd hh (hty m i)
  · exact h

theorem C24_symbol_id_refuted : ¬ ReachedById := by
  intro hall
  have hv : (⟨[], []⟩ : Oracle).Valid symC (runOps exCfg symOps) 0 "u" := by
    refine ⟨⟨by simp, by simp, by decide +kernel⟩, ?_⟩
    simp [symC]
  have ht : Travel symC (runOps exCfg symOps) "?" "u" 0 0 (.failed 0) := .stop hv (by decide +kernel)
  have := hall _ _ sym_consistent 0 1 "?" "u" "t" 0 _ (by simp [Hosts, symC]) ht
  cases this

end Braid.System
