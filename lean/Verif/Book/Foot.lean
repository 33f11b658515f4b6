import Verif.Book.Spec
import Verif.AddressBook.Lemmas

/-
What the address book holds of each id, and how the commands change it.
-/
namespace Braid.Book
open AddressBook Book.Spec
open AddressBook.Spec (Reg weightOf)

variable {cfg : Nat → NodeCfg} {own : String → Nat}

/-- What there is of an id: its type and weight, and whether it is in the hash of ids, in the set of its type, in the two
counters, and in the `IDMap` of its node. -/
structure Foot where
  ty : String
  w : Int
  inIds : Bool
  inTys : Bool
  cntTy : Bool
  cntTot : Bool
  inMap : Bool

/-- Nothing. -/
def Foot.Off (f : Foot) : Prop :=
  f.inIds = false ∧ f.inTys = false ∧ f.cntTy = false ∧ f.cntTot = false ∧ f.inMap = false

/-- Nothing in Redis. -/
def Foot.Gone (f : Foot) : Prop := f.inIds = false ∧ f.inTys = false ∧ f.cntTy = false ∧ f.cntTot = false

/-- Everything. -/
def Foot.full (ty : String) (w : Int) : Foot := ⟨ty, w, true, true, true, true, true⟩

/-- It counts in a field. -/
def Foot.counted (f : Foot) : Field → Bool
  | .total => f.cntTot
  | .actor ty => f.cntTy && decide (f.ty = ty)

/-- What an id contributes to a field of a node. -/
def contrib (own : String → Nat) (F : String → Foot) (n : Nat) (fl : Field) (id : String) : Int :=
  if own id = n ∧ (F id).counted fl = true then (F id).w else 0

/-- The world holds exactly what `F` says. -/
structure Impl (cfg : Nat → NodeCfg) (own : String → Nat) (F : String → Foot) (W : World) : Prop where
  ids : ∀ id, W.redis.ids id = if (F id).inIds = true then some (addrOf cfg (own id) (F id).ty id) else none
  tys : ∀ ty a, a ∈ W.redis.tys ty ↔ ∃ id, (F id).inTys = true ∧ (F id).ty = ty ∧ a = addrOf cfg (own id) ty id
  idmap : ∀ n id, W.idmap n id = true ↔ n = own id ∧ (F id).inMap = true
  load : ∃ L : List String, L.Nodup ∧ (∀ id, id ∉ L → (F id).cntTy = false ∧ (F id).cntTot = false) ∧
    ∀ n fl, (hget fl (W.redis.load (cfg n).nodeID)).getD 0 = (L.map (contrib own F n fl)).sum
  fields : ∀ id, (F id).cntTy = true → hget (.actor (F id).ty) (W.redis.load (cfg (own id)).nodeID) ≠ none

theorem addrOf_id (n : Nat) (ty id : String) : (addrOf cfg n ty id).actorId = id := rfl

theorem addrOf_inj {n m : Nat} {ty ty' id id' : String} (h : addrOf cfg n ty id = addrOf cfg m ty' id') :
    ty = ty' ∧ id = id' := by
  simp only [addrOf, Addr.mk.injEq] at h
  exact ⟨h.2.1, h.1⟩

theorem sum_congr {L : List String} {g g' : String → Int} (h : ∀ x ∈ L, g x = g' x) : (L.map g).sum = (L.map g').sum := by
  rw [List.map_congr_left h]

theorem sum_upd {L : List String} (hn : L.Nodup) {id : String} (hi : id ∈ L) {g g' : String → Int}
    (h : ∀ x, x ≠ id → g' x = g x) : (L.map g').sum = (L.map g).sum - g id + g' id := by
  induction L with
  | nil => cases hi
  | cons x L ih =>
    rw [List.nodup_cons] at hn
    simp only [List.map_cons, List.sum_cons]
    by_cases hx : x = id
    · subst hx
      rw [sum_congr fun y hy => h y fun he => hn.1 (he ▸ hy)]
      omega
    · rw [h x hx, ih hn.2 ((List.mem_cons.1 hi).resolve_left fun he => hx he.symm)]
      omega

theorem sum_zero {L : List String} {g : String → Int} (h : ∀ x ∈ L, g x = 0) : (L.map g).sum = 0 := by
  induction L with
  | nil => rfl
  | cons x L ih => simp [h x (by simp), ih fun y hy => h y (by simp [hy])]

/-- The list of ids may be taken to contain a given one. -/
theorem Impl.load_with {F : String → Foot} {W : World} (hi : Impl cfg own F W) (id : String) :
    ∃ L : List String, L.Nodup ∧ id ∈ L ∧ (∀ id, id ∉ L → (F id).cntTy = false ∧ (F id).cntTot = false) ∧
    ∀ n fl, (hget fl (W.redis.load (cfg n).nodeID)).getD 0 = (L.map (contrib own F n fl)).sum := by
  obtain ⟨L, h1, h2, h3⟩ := hi.load
  by_cases hm : id ∈ L
  · exact ⟨L, h1, hm, h2, h3⟩
  · refine ⟨id :: L, List.nodup_cons.2 ⟨hm, h1⟩, by simp, fun x hx => h2 x fun h => hx (by simp [h]), fun n fl => ?_⟩
    rw [h3, List.map_cons, List.sum_cons]
    have : contrib own F n fl id = 0 := by
      obtain ⟨h4, h5⟩ := h2 id hm
      unfold contrib
      rw [if_neg]
      rintro ⟨-, h⟩
      cases fl <;> simp [Foot.counted, h4, h5] at h
    omega

theorem contrib_upd_ne {F : String → Foot} {id x : String} {f : Foot} {n : Nat} {fl : Field} (h : x ≠ id) :
    contrib own (upd F id f) n fl x = contrib own F n fl x := by
  simp [contrib, upd_of_ne _ _ h]

/-- A change of one id that leaves what it counts for. -/
theorem load_same {F : String → Foot} {W : World} (hi : Impl cfg own F W) {id : String} {f : Foot}
    (hc : ∀ fl, (f.counted fl = (F id).counted fl ∧ (f.counted fl = true → f.w = (F id).w))) {r : Redis}
    (hr : r.load = W.redis.load) (hz : f.cntTy = (F id).cntTy) :
    (∃ L : List String, L.Nodup ∧ (∀ x, x ∉ L → (upd F id f x).cntTy = false ∧ (upd F id f x).cntTot = false) ∧
      ∀ n fl, (hget fl (r.load (cfg n).nodeID)).getD 0 = (L.map (contrib own (upd F id f) n fl)).sum) := by
  obtain ⟨L, h1, h0, h2, h3⟩ := hi.load_with id
  refine ⟨L, h1, fun x hx => ?_, fun n fl => ?_⟩
  · have : x ≠ id := fun h => hx (h ▸ h0)
    rw [upd_of_ne _ _ this]; exact h2 x hx
  · rw [hr, h3]
    refine sum_congr fun x _ => ?_
    by_cases hx : x = id
    · subst hx
      simp only [contrib, upd_same]
      have := hc fl
      by_cases ho : own x = n
      · by_cases hd : f.counted fl = true
        · rw [if_pos ⟨ho, this.1 ▸ hd⟩, if_pos ⟨ho, hd⟩, this.2 hd]
        · rw [if_neg fun h => hd (this.1 ▸ h.2), if_neg fun h => hd h.2]
      · rw [if_neg fun h => ho h.1, if_neg fun h => ho h.1]
    · exact (contrib_upd_ne hx).symm

theorem upd_self {β : Type} (F : String → β) (id : String) : upd F id (F id) = F := by
  funext x
  rw [upd_apply]
  split
  · rename_i h; rw [h]
  · rfl

theorem ids_upd {F : String → Foot} {id : String} {f : Foot} (h : f.inIds = (F id).inIds)
    (ht : f.inIds = true → f.ty = (F id).ty) (x : String) :
    (if (F x).inIds = true then some (addrOf cfg (own x) (F x).ty x) else none) =
      if (upd F id f x).inIds = true then some (addrOf cfg (own x) (upd F id f x).ty x) else none := by
  by_cases hx : x = id
  · subst hx
    rw [upd_same]
    by_cases hi : f.inIds = true
    · rw [if_pos hi, if_pos (h ▸ hi), ht hi]
    · rw [if_neg hi, if_neg (h ▸ hi)]
  · rw [upd_of_ne _ _ hx]

/-- An id of which there is nothing may have any type and weight. -/
theorem impl_off {F : String → Foot} {W : World} (hi : Impl cfg own F W) {id : String} (ho : (F id).Off) (ty : String) (w : Int) :
    Impl cfg own (upd F id ⟨ty, w, false, false, false, false, false⟩) W := by
  obtain ⟨h1, h2, h3, h4, h5⟩ := ho
  constructor
  · intro x
    rw [hi.ids]
    exact ids_upd (by simp [h1]) (by simp) x
  · intro t a
    rw [hi.tys]
    constructor
    · rintro ⟨x, hx, hy⟩
      have : x ≠ id := fun h => by rw [h, h2] at hx; cases hx
      exact ⟨x, by rw [upd_of_ne _ _ this]; exact ⟨hx, hy⟩⟩
    · rintro ⟨x, hx⟩
      by_cases h : x = id
      · subst h; simp at hx
      · rw [upd_of_ne _ _ h] at hx; exact ⟨x, hx⟩
  · intro n x
    rw [hi.idmap, upd_apply]
    split
    · rename_i hx; subst hx; simp [h5]
    · rfl
  · refine load_same hi (fun fl => ?_) (r := W.redis) rfl (by simp [h3])
    cases fl <;> simp [Foot.counted, h3, h4]
  · intro x
    rw [upd_apply]
    split
    · simp
    · exact hi.fields x

theorem impl_hsetId {F : String → Foot} {W : World} (hi : Impl cfg own F W) (id : String) :
    Impl cfg own (upd F id { F id with inIds := true }) (exec1 W (.hsetId id (addrOf cfg (own id) (F id).ty id))) := by
  constructor
  · intro x
    simp only [exec1, Redis.run, set_apply, upd_apply]
    split
    · rename_i hx; subst hx; simp
    · exact hi.ids x
  · intro t a
    simp only [exec1, Redis.run]
    rw [hi.tys]
    refine exists_congr fun x => ?_
    rw [upd_apply]
    split
    · rename_i h; subst h; simp
    · rfl
  · intro n x
    simp only [exec1]
    rw [hi.idmap, upd_apply]
    split
    · rename_i h; subst h; simp
    · rfl
  · exact load_same hi (fun fl => by cases fl <;> simp [Foot.counted]) (by simp [exec1, Redis.run]) rfl
  · intro x
    simp only [exec1, Redis.run]
    rw [upd_apply]
    split
    · rename_i h; subst h; exact hi.fields x
    · exact hi.fields x

theorem impl_hdelId {F : String → Foot} {W : World} (hi : Impl cfg own F W) (id : String) :
    Impl cfg own (upd F id { F id with inIds := false }) (exec1 W (.hdelId id)) := by
  constructor
  · intro x
    simp only [exec1, Redis.run, set_apply, upd_apply]
    split
    · rename_i hx; subst hx; simp
    · exact hi.ids x
  · intro t a
    simp only [exec1, Redis.run]
    rw [hi.tys]
    refine exists_congr fun x => ?_
    rw [upd_apply]
    split
    · rename_i h; subst h; simp
    · rfl
  · intro n x
    simp only [exec1]
    rw [hi.idmap, upd_apply]
    split
    · rename_i h; subst h; simp
    · rfl
  · exact load_same hi (fun fl => by cases fl <;> simp [Foot.counted]) (by simp [exec1, Redis.run]) rfl
  · intro x
    simp only [exec1, Redis.run]
    rw [upd_apply]
    split
    · rename_i h; subst h; exact hi.fields x
    · exact hi.fields x

theorem impl_sadd {F : String → Foot} {W : World} (hi : Impl cfg own F W) (id : String) :
    Impl cfg own (upd F id { F id with inTys := true })
      (exec1 W (.sadd (F id).ty (addrOf cfg (own id) (F id).ty id))) := by
  constructor
  · intro x
    simp only [exec1, Redis.run]
    rw [hi.ids]
    exact ids_upd (by rfl) (by intro _; rfl) x
  · intro t a
    simp only [exec1, Redis.run, set_apply]
    have key : (a ∈ (if t = (F id).ty then
        (if addrOf cfg (own id) (F id).ty id ∈ W.redis.tys (F id).ty then W.redis.tys (F id).ty
          else W.redis.tys (F id).ty ++ [addrOf cfg (own id) (F id).ty id]) else W.redis.tys t)) ↔
        a ∈ W.redis.tys t ∨ (t = (F id).ty ∧ a = addrOf cfg (own id) (F id).ty id) := by
      split
      · rename_i h
        subst h
        split
        · rename_i h2
          exact ⟨.inl, fun h => h.elim (fun h => h) fun h => h.2 ▸ h2⟩
        · simp
      · rename_i h
        exact ⟨.inl, fun h2 => h2.elim (fun h => h) fun h2 => absurd h2.1 h⟩
    rw [key, hi.tys]
    constructor
    · rintro (⟨x, h1, h2, h3⟩ | ⟨h1, h2⟩)
      · refine ⟨x, ?_⟩
        rw [upd_apply]
        split
        · rename_i h; subst h; exact ⟨rfl, h2, h3⟩
        · exact ⟨h1, h2, h3⟩
      · exact ⟨id, by rw [upd_same]; exact ⟨rfl, h1.symm, h1 ▸ h2⟩⟩
    · rintro ⟨x, h1, h2, h3⟩
      by_cases h : x = id
      · subst h
        rw [upd_same] at h2
        exact .inr ⟨h2.symm, h2 ▸ h3⟩
      · rw [upd_of_ne _ _ h] at h1 h2
        exact .inl ⟨x, h1, h2, h3⟩
  · intro n x
    simp only [exec1]
    rw [hi.idmap, upd_apply]
    split
    · rename_i h; subst h; simp
    · rfl
  · exact load_same hi (fun fl => by cases fl <;> simp [Foot.counted]) (by simp [exec1, Redis.run]) rfl
  · intro x
    simp only [exec1, Redis.run]
    rw [upd_apply]
    split
    · rename_i h; subst h; exact hi.fields x
    · exact hi.fields x

theorem impl_srem {F : String → Foot} {W : World} (hi : Impl cfg own F W) (id : String) :
    Impl cfg own (upd F id { F id with inTys := false })
      (exec1 W (.srem (F id).ty (addrOf cfg (own id) (F id).ty id))) := by
  constructor
  · intro x
    simp only [exec1, Redis.run]
    rw [hi.ids]
    exact ids_upd (by rfl) (by intro _; rfl) x
  · intro t a
    simp only [exec1, Redis.run, set_apply]
    have key : (a ∈ (if t = (F id).ty then (W.redis.tys (F id).ty).filter (· ≠ addrOf cfg (own id) (F id).ty id)
        else W.redis.tys t)) ↔
        a ∈ W.redis.tys t ∧ ¬ (t = (F id).ty ∧ a = addrOf cfg (own id) (F id).ty id) := by
      split
      · rename_i h
        subst h
        simp
      · rename_i h
        exact ⟨fun h2 => ⟨h2, fun h3 => h h3.1⟩, fun h2 => h2.1⟩
    rw [key, hi.tys]
    constructor
    · rintro ⟨⟨x, h1, h2, h3⟩, h4⟩
      refine ⟨x, ?_⟩
      by_cases h : x = id
      · subst h
        exact absurd ⟨h2.symm, h2 ▸ h3⟩ h4
      · rw [upd_of_ne _ _ h]; exact ⟨h1, h2, h3⟩
    · rintro ⟨x, h1, h2, h3⟩
      by_cases h : x = id
      · subst h; simp at h1
      · rw [upd_of_ne _ _ h] at h1 h2
        refine ⟨⟨x, h1, h2, h3⟩, fun h4 => h ?_⟩
        exact (addrOf_inj (h3.symm.trans h4.2)).2
  · intro n x
    simp only [exec1]
    rw [hi.idmap, upd_apply]
    split
    · rename_i h; subst h; simp
    · rfl
  · exact load_same hi (fun fl => by cases fl <;> simp [Foot.counted]) (by simp [exec1, Redis.run]) rfl
  · intro x
    simp only [exec1, Redis.run]
    rw [upd_apply]
    split
    · rename_i h; subst h; exact hi.fields x
    · exact hi.fields x

theorem impl_hsetNode {F : String → Foot} {W : World} (hi : Impl cfg own F W) (k : String) (a : Addr) :
    Impl cfg own F (exec1 W (.hsetNode k a)) :=
  ⟨hi.ids, hi.tys, hi.idmap, hi.load, hi.fields⟩

theorem impl_hdelNode {F : String → Foot} {W : World} (hi : Impl cfg own F W) (k : String) :
    Impl cfg own F (exec1 W (.hdelNode k)) :=
  ⟨hi.ids, hi.tys, hi.idmap, hi.load, hi.fields⟩

theorem impl_setIdmap {F : String → Foot} {W : World} (hi : Impl cfg own F W) (id : String) (b : Bool) :
    Impl cfg own (upd F id { F id with inMap := b }) (setIdmap W (own id) id b) := by
  constructor
  · intro x
    simp only [setIdmap]
    rw [hi.ids]
    exact ids_upd (by rfl) (by intro _; rfl) x
  · intro t a
    simp only [setIdmap]
    rw [hi.tys]
    refine exists_congr fun x => ?_
    rw [upd_apply]
    split
    · rename_i h; subst h; simp
    · rfl
  · intro n x
    simp only [setIdmap, upd_apply]
    by_cases h : x = id
    · subst h
      by_cases hn : n = own x
      · simp [hn]
      · simp only [hn, false_and, if_false, iff_false]
        rw [hi.idmap]
        exact fun h => hn h.1
    · simp only [h, and_false, if_false]
      exact hi.idmap n x
  · exact load_same hi (fun fl => by cases fl <;> simp [Foot.counted]) (by simp [setIdmap]) rfl
  · intro x
    simp only [setIdmap]
    rw [upd_apply]
    split
    · rename_i h; subst h; exact hi.fields x
    · exact hi.fields x

/-- A counter of the node of an id is changed. -/
theorem impl_incr (hd : ∀ m n, (cfg m).nodeID = (cfg n).nodeID → m = n) {F : String → Foot} {W : World}
    (hi : Impl cfg own F W) (id : String) {fl : Field} {d : Int} {f : Foot}
    (hsame : f.ty = (F id).ty ∧ f.w = (F id).w ∧ f.inIds = (F id).inIds ∧ f.inTys = (F id).inTys ∧ f.inMap = (F id).inMap)
    (hfl : fl = .total ∨ fl = .actor (F id).ty)
    (hone : (if f.counted fl = true then (F id).w else 0) = (if (F id).counted fl = true then (F id).w else 0) + d)
    (hoth : ∀ fl', fl' ≠ fl → f.counted fl' = (F id).counted fl') :
    Impl cfg own (upd F id f) (exec1 W (.hincr (cfg (own id)).nodeID fl d)) := by
  obtain ⟨e1, e2, e3, e4, e5⟩ := hsame
  constructor
  · intro x
    simp only [exec1, Redis.run]
    rw [hi.ids]
    exact ids_upd e3 (fun _ => e1) x
  · intro t a
    simp only [exec1, Redis.run]
    rw [hi.tys]
    refine exists_congr fun x => ?_
    rw [upd_apply]
    split
    · rename_i h; subst h; simp [e1, e4]
    · rfl
  · intro n x
    simp only [exec1]
    rw [hi.idmap, upd_apply]
    split
    · rename_i h; subst h; simp [e5]
    · rfl
  · obtain ⟨L, h1, h0, h2, h3⟩ := hi.load_with id
    refine ⟨L, h1, fun x hx => ?_, fun n fl' => ?_⟩
    · have : x ≠ id := fun h => hx (h ▸ h0)
      rw [upd_of_ne _ _ this]; exact h2 x hx
    · rw [sum_upd h1 h0 (g := contrib own F n fl') fun x hx => contrib_upd_ne hx, ← h3]
      simp only [exec1, Redis.run, set_apply]
      by_cases hn : (cfg n).nodeID = (cfg (own id)).nodeID
      · have hn' := hd _ _ hn
        subst hn'
        rw [if_pos rfl, hget_hincrBy]
        by_cases hf : fl' = fl
        · subst hf
          rw [if_pos rfl, Option.getD_some]
          simp only [contrib, upd_same, true_and, e2]
          omega
        · rw [if_neg hf]
          simp only [contrib, upd_same, true_and, e2, hoth fl' hf]
          omega
      · rw [if_neg hn]
        have hne : own id ≠ n := fun h => hn (by rw [h])
        simp only [contrib, hne, false_and, if_false]
        omega
  · intro x hx
    simp only [exec1, Redis.run, set_apply]
    have hold : x ≠ id ∨ (F id).cntTy = true ∨ fl = .actor (F id).ty := by
      by_cases h : x = id
      · right
        subst h
        rw [upd_same] at hx
        rcases hfl with h | h
        · left
          have := hoth (.actor (F x).ty) (by rw [h]; simp)
          simp only [Foot.counted, e1, decide_true, Bool.and_true] at this
          rw [← this]; exact hx
        · exact .inr h
      · exact .inl h
    have hty : (upd F id f x).ty = (F x).ty := by
      rw [upd_apply]; split
      · rename_i h; subst h; exact e1
      · rfl
    rw [hty]
    split
    · rename_i hn
      rw [hget_hincrBy]
      split
      · simp
      · rename_i hf
        rw [← hn]
        by_cases h : x = id
        · subst h
          rcases hold with h | h | h
          · exact absurd rfl h
          · exact hi.fields x h
          · exact absurd h.symm hf
        · rw [upd_of_ne _ _ h] at hx
          exact hi.fields x hx
    · rename_i hn
      have h : x ≠ id := fun h => hn (by rw [h])
      rw [upd_of_ne _ _ h] at hx
      exact hi.fields x hx

/-- The hash of a node is deleted. -/
theorem impl_delLoad (hd : ∀ m n, (cfg m).nodeID = (cfg n).nodeID → m = n) {F : String → Foot} {W : World}
    (hi : Impl cfg own F W) (n : Nat) :
    Impl cfg own (fun x => if own x = n then { F x with cntTy := false, cntTot := false } else F x)
      (exec1 W (.delLoad (cfg n).nodeID)) := by
  constructor
  · intro x
    simp only [exec1, Redis.run]
    rw [hi.ids]
    split <;> split <;> simp_all
  · intro t a
    simp only [exec1, Redis.run]
    rw [hi.tys]
    refine exists_congr fun x => ?_
    split
    · simp
    · rfl
  · intro m x
    simp only [exec1]
    rw [hi.idmap]
    split
    · simp
    · rfl
  · obtain ⟨L, h1, h2, h3⟩ := hi.load
    refine ⟨L, h1, fun x hx => ?_, fun m fl => ?_⟩
    · dsimp only
      split
      · simp
      · exact h2 x hx
    · simp only [exec1, Redis.run, set_apply]
      by_cases hm : m = n
      · subst hm
        rw [if_pos rfl]
        symm
        refine sum_zero fun x _ => ?_
        unfold contrib
        rw [if_neg]
        rintro ⟨ho, hc⟩
        dsimp only at hc
        rw [if_pos ho] at hc
        cases fl <;> simp [Foot.counted] at hc
      · rw [if_neg fun h => hm (hd _ _ h), h3]
        refine sum_congr fun x _ => ?_
        unfold contrib
        by_cases ho : own x = m
        · have : own x ≠ n := fun h => hm (ho.symm.trans h)
          simp [this]
        · rw [if_neg fun h => ho h.1, if_neg fun h => ho h.1]
  · intro x hx
    dsimp only at hx ⊢
    by_cases ho : own x = n
    · rw [if_pos ho] at hx; cases hx
    · rw [if_neg ho] at hx ⊢
      simp only [exec1, Redis.run, set_apply]
      rw [if_neg fun h => ho (hd _ _ h)]
      exact hi.fields x hx

end Braid.Book
