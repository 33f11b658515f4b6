import Verif.System.Spec
import Verif.AddressBook.Props

/-
Lemmas about routing.
-/
namespace Braid.System
open AddressBook Spec

theorem has_iff {C : Cluster} {n : Nat} {id : String} : C.has n id = true ↔ ∃ ty, Hosts C n id ty := by
  unfold Cluster.has Hosts
  rw [List.any_eq_true]
  constructor
  · rintro ⟨⟨i, ty⟩, h1, h2⟩
    simp only [decide_eq_true_eq] at h2
    subst h2
    exact ⟨ty, h1⟩
  · rintro ⟨ty, h⟩
    exact ⟨(id, ty), h, by simp⟩

/-- What a wildcard lookup returns is in the sample. -/
theorem wildcard_mem {weight : String → Option Int} {sample : List Addr} {a : Addr}
    (h : wildcard weight sample = .ok a) : a ∈ sample :=
  ((C35_wildcard_least_partial weight sample).1 a h).1

variable {C : Cluster} {W : World}

theorem wildcard_hosts (hc : Consistent C W) {n : Nat} {ty : String} {o : Oracle} (ho : o.Valid C W n ty)
    {a : Addr} (h : wildcard (totalWeight W) o.sample = .ok a) :
    ∃ m id, Hosts C m id ty ∧ a = address C m ty id :=
  (hc.tys ty a).1 (ho.1.2.1 a (wildcard_mem h))

/-- Two nodes with the same address are the same. -/
theorem addr_inj (hc : Consistent C W) {n m : Nat} (h1 : (C.cfg n).ip = (C.cfg m).ip)
    (h2 : (C.cfg n).port = (C.cfg m).port) : n = m := by
  have h3 := hc.listen n
  rw [h1, h2, hc.listen m] at h3
  cases h3; rfl

theorem resolve_other (hc : Consistent C W) {n m : Nat} (hne : n ≠ m) (ty ty' id : String) :
    resolve C n ty (address C m ty' id) = .forward (address C m ty' id) := by
  unfold resolve
  rw [if_neg]
  rintro ⟨h1, h2⟩
  exact hne (addr_inj hc h1.symm h2.symm)

/-- Routing by id when the actor is here. -/
theorem route_here {n : Nat} {target ty ty' : String} (hp : Plain target) (hne : target ≠ "")
    (hh : Hosts C n target ty') (o : Oracle) : route C W n target ty o = .here target := by
  unfold route
  rw [if_neg hne, if_neg hp.1, if_neg hp.2, if_pos (has_iff.2 ⟨ty', hh⟩)]

/-- Routing by id when the actor is on another node. -/
theorem route_other (hc : Consistent C W) {n m : Nat} {target ty ty' : String} (hp : Plain target)
    (hh : Hosts C m target ty') (hnm : n ≠ m) (o : Oracle) :
    route C W n target ty o = .forward (address C m ty' target) := by
  have hn : C.has n target = false := by
    cases h : C.has n target with
    | false => rfl
    | true =>
      obtain ⟨ty2, h2⟩ := has_iff.1 h
      exact absurd (hc.unique _ _ _ _ _ h2 hh).1 hnm
  have him : W.idmap n target = false := by
    cases h : W.idmap n target with
    | false => rfl
    | true =>
      obtain ⟨ty2, h2⟩ := hc.idmap _ _ h
      exact absurd (hc.unique _ _ _ _ _ h2 hh).1 hnm
  have hid : W.redis.ids target = some (address C m ty' target) := (hc.ids _ _).2 ⟨m, ty', hh, rfl⟩
  unfold route
  rw [if_neg (hc.named _ _ _ hh), if_neg hp.1, if_neg hp.2, hn]
  simp only [Bool.false_eq_true, if_false, getByID, hc.named _ _ _ hh, him, hid]
  exact resolve_other hc hnm ty ty' target

/-- Routing by id when nobody has it. -/
theorem route_unknown (hc : Consistent C W) {n : Nat} {target ty : String} (hp : Plain target) (hne : target ≠ "")
    (hh : ∀ m ty', ¬ Hosts C m target ty') (o : Oracle) :
    route C W n target ty o = .unknown .unknownActor := by
  have hn : C.has n target = false := by
    cases h : C.has n target with
    | false => rfl
    | true => obtain ⟨ty2, h2⟩ := has_iff.1 h; exact absurd h2 (hh _ _)
  have him : W.idmap n target = false := by
    cases h : W.idmap n target with
    | false => rfl
    | true => obtain ⟨ty2, h2⟩ := hc.idmap _ _ h; exact absurd h2 (hh _ _)
  have hid : W.redis.ids target = none := by
    cases h : W.redis.ids target with
    | none => rfl
    | some a => obtain ⟨m, ty2, h2, -⟩ := (hc.ids _ _).1 h; exact absurd h2 (hh _ _)
  unfold route
  rw [if_neg hne, if_neg hp.1, if_neg hp.2, hn]
  simp [getByID, hne, him, hid]

/-- A directory has one entry for an id. -/
theorem dir_unique {cfg : Nat → NodeCfg} {own : String → Nat} {d : List AddressBook.Spec.Reg} {dead : List Nat}
    {W : World} (hR : Refines cfg own d dead W) : ∀ r ∈ d, ∀ r' ∈ d, r.id = r'.id → r = r' := by
  have hp := hR.nodup
  intro r hr r' hr' he
  by_cases h : r = r'
  · exact h
  · exfalso
    obtain ⟨i, hi, rfl⟩ := List.getElem_of_mem hr
    obtain ⟨j, hj, rfl⟩ := List.getElem_of_mem hr'
    rw [List.pairwise_iff_getElem] at hp
    rcases Nat.lt_trichotomy i j with h1 | h1 | h1
    · exact hp i j hi hj h1 he
    · subst h1; exact h rfl
    · exact hp j i hj hi h1 he.symm

/-- A cluster whose nodes host what a legal history has registered is consistent. -/
theorem consistent_of_ops {own : String → Nat} {ops : List AddressBook.Op} (hd : DistinctNodes C.cfg)
    (hl : AddressBook.Spec.LegalOps own ops) (hs : AddressBook.Spec.stopped ops = [])
    (hlis : ∀ n, C.listen (C.cfg n).ip (C.cfg n).port = some n)
    (hmirror : ∀ n id ty, Hosts C n id ty ↔
      ∃ r ∈ AddressBook.Spec.dir ops, r.node = n ∧ r.id = id ∧ r.ty = ty) :
    Consistent C (runOps C.cfg ops) := by
  have hR := refines_run hd ops hl
  have huniq := dir_unique hR
  refine ⟨?_, ?_, ?_, ?_, hlis, hR.tysNodup, ?_⟩
  · intro n m id ty ty' h1 h2
    obtain ⟨r, hr, rfl, rfl, rfl⟩ := (hmirror _ _ _).1 h1
    obtain ⟨r', hr', rfl, he, rfl⟩ := (hmirror _ _ _).1 h2
    have := huniq r hr r' hr' he.symm
    subst this
    exact ⟨rfl, rfl⟩
  · intro id a
    rw [hR.ids]
    constructor
    · rintro ⟨r, hr, rfl, rfl⟩
      exact ⟨r.node, r.ty, (hmirror _ _ _).2 ⟨r, hr, rfl, rfl, rfl⟩, rfl⟩
    · rintro ⟨n, ty, hh, rfl⟩
      obtain ⟨r, hr, rfl, rfl, rfl⟩ := (hmirror _ _ _).1 hh
      exact ⟨r, hr, rfl, rfl⟩
  · intro ty a
    rw [hR.tys]
    constructor
    · rintro ⟨r, hr, rfl, rfl⟩
      exact ⟨r.node, r.id, (hmirror _ _ _).2 ⟨r, hr, rfl, rfl, rfl⟩, rfl⟩
    · rintro ⟨n, id, hh, rfl⟩
      obtain ⟨r, hr, rfl, rfl, rfl⟩ := (hmirror _ _ _).1 hh
      exact ⟨r, hr, rfl, rfl⟩
  · intro n id h
    obtain ⟨r, hr, rfl, rfl⟩ := (hR.idmap n (by rw [hs]; simp) id).1 h
    exact ⟨r.ty, (hmirror _ _ _).2 ⟨r, hr, rfl, rfl, rfl⟩⟩
  · intro n id ty h
    obtain ⟨r, hr, rfl, rfl, rfl⟩ := (hmirror _ _ _).1 h
    exact (hR.wf r hr).1

/-- A legal history gives a coherent address book, whatever the nodes are running. -/
theorem coherent_of_ops {own : String → Nat} {ops : List AddressBook.Op} (hd : DistinctNodes C.cfg)
    (hl : AddressBook.Spec.LegalOps own ops) {n : Nat} (hs : n ∉ AddressBook.Spec.stopped ops)
    (haddr : ∀ m, (C.cfg m).ip = (C.cfg n).ip → (C.cfg m).port = (C.cfg n).port → m = n)
    (hty : ∀ r ∈ AddressBook.Spec.dir ops, ∀ ty, r.node = n → Hosts C n r.id ty → ty = r.ty) :
    Coherent C (runOps C.cfg ops) n := by
  have hR := refines_run hd ops hl
  have huniq := dir_unique hR
  refine ⟨?_, ?_, ?_, ?_, ?_⟩
  · intro id a h
    obtain ⟨r, hr, rfl, rfl⟩ := (hR.ids _ _).1 h
    rfl
  · intro ty a h
    obtain ⟨r, hr, rfl, rfl⟩ := (hR.tys _ _).1 h
    exact ⟨(hR.ids _ _).2 ⟨r, hr, rfl, rfl⟩, rfl⟩
  · intro id a h h1 h2
    obtain ⟨r, hr, rfl, rfl⟩ := (hR.ids _ _).1 h
    have := haddr r.node h1 h2
    show (C.cfg r.node).nodeID = _
    rw [this]
  · intro id a h1 h
    obtain ⟨r, hr, rfl, rfl⟩ := (hR.ids _ _).1 h
    obtain ⟨r', hr', h2, h3⟩ := (hR.idmap n hs _).1 h1
    have := huniq r hr r' hr' (by first | exact h2.symm | exact h3.symm)
    subst this
    show (C.cfg r.node).nodeID = _
    first | rw [h2] | rw [h3]
  · intro id a ty h h1 hh
    obtain ⟨r, hr, rfl, rfl⟩ := (hR.ids _ _).1 h
    exact hty r hr ty (hd _ _ h1) hh

/-- There is a possible choice at every node. -/
theorem exists_oracle (hc : Consistent C W) (n : Nat) (ty : String) : ∃ o : Oracle, o.Valid C W n ty := by
  refine ⟨⟨(W.redis.tys ty).take 10, (C.node n).actors⟩, ⟨(hc.nodup ty).sublist (List.take_sublist _ _),
    fun a ha => List.mem_of_mem_take ha, ?_⟩, List.Perm.refl _⟩
  rw [List.length_take]

end Braid.System
