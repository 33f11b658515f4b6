import Verif.AddressBook.Spec

/-
Helper lemmas: effects of the pipelines, and the refinement relation between the world and the
abstract directory.
-/
namespace Braid.AddressBook
open Spec

@[simp] theorem set_same {β : Type} (f : String → β) (k : String) (v : β) : set f k v k = v := by
  simp [set]

theorem set_apply {β : Type} (f : String → β) (k x : String) (v : β) :
    set f k v x = if x = k then v else f x := rfl

theorem hget_hincrBy (f g : Field) (w : Int) (l : List (Field × Int)) :
    hget g (hincrBy f w l) = if g = f then some ((hget f l).getD 0 + w) else hget g l := by
  induction l with
  | nil =>
    by_cases h : g = f
    · simp [hincrBy, hget, h]
    · have h' : ¬ f = g := fun e => h e.symm
      simp [hincrBy, hget, h, h']
  | cons p r ih =>
    obtain ⟨k, v⟩ := p
    by_cases hk : k = f
    · subst hk
      by_cases hg : g = k
      · subst hg; simp [hincrBy, hget]
      · have hg' : ¬ k = g := fun h => hg h.symm
        simp [hincrBy, hget, hg, hg']
    · by_cases hg : k = g
      · subst hg; simp [hincrBy, hget, hk]
      · simp [hincrBy, hget, hk, hg, ih]

theorem mem_typesOf {l : List (Field × Int)} {ty : String} :
    ty ∈ typesOf l ↔ ∃ v, (Field.actor ty, v) ∈ l := by
  induction l with
  | nil => simp [typesOf]
  | cons p r ih =>
    obtain ⟨f, v⟩ := p
    cases f with
    | total => simp [typesOf, ih]
    | actor t => by_cases h : ty = t <;> simp [typesOf, ih, h]

theorem mem_typesOf_iff_hget {l : List (Field × Int)} {ty : String} :
    ty ∈ typesOf l ↔ hget (.actor ty) l ≠ none := by
  induction l with
  | nil => simp [typesOf, hget]
  | cons p r ih =>
    obtain ⟨f, v⟩ := p
    cases f with
    | total => simp [typesOf, hget, ih]
    | actor t =>
      by_cases h : t = ty
      · simp [typesOf, hget, h]
      · have h' : ¬ ty = t := fun e => h e.symm
        simp [typesOf, hget, h, h', ih]

theorem pipe_append (r : Redis) (a b : List Cmd) : r.pipe (a ++ b) = (r.pipe a).pipe b := by
  simp [Redis.pipe, List.foldl_append]

/-- Effect of removing a list of addresses. -/
theorem pipe_remove (r : Redis) (L : List (String × Addr)) :
    let r' := r.pipe (L.flatMap fun p => [.srem p.1 p.2, .hdelId p.2.actorId])
    (∀ id, r'.ids id = if (∃ p ∈ L, p.2.actorId = id) then none else r.ids id) ∧
    (∀ ty, r'.tys ty = (r.tys ty).filter fun a => (ty, a) ∉ L) ∧
    r'.nodes = r.nodes ∧ r'.load = r.load := by
  induction L generalizing r with
  | nil =>
    refine ⟨by simp [Redis.pipe], fun ty => ?_, rfl, rfl⟩
    exact (List.filter_eq_self.2 (by simp)).symm
  | cons p L ih =>
    rw [List.flatMap_cons]
    simp only [pipe_append]
    have h := ih (r.pipe [.srem p.1 p.2, .hdelId p.2.actorId])
    simp only at h
    obtain ⟨h1, h2, h3, h4⟩ := h
    refine ⟨fun id => ?_, fun ty => ?_, ?_, ?_⟩
    · rw [h1]
      simp only [Redis.pipe, List.foldl_cons, List.foldl_nil, Redis.run, set_apply]
      by_cases hp : p.2.actorId = id
      · simp [hp]
      · have hp' : ¬ id = p.2.actorId := fun e => hp e.symm
        simp only [List.mem_cons, exists_eq_or_imp, hp, false_or, if_neg hp']
    · rw [h2]
      simp only [Redis.pipe, List.foldl_cons, List.foldl_nil, Redis.run, set_apply]
      by_cases ht : ty = p.1
      · subst ht
        rw [if_pos rfl, List.filter_filter]
        apply List.filter_congr
        intro a _
        simp only [List.mem_cons, Prod.ext_iff]
        by_cases ha : a = p.2 <;> simp [ha]
      · rw [if_neg ht]
        apply List.filter_congr
        intro a _
        simp [Prod.ext_iff, ht]
    · rw [h3]; rfl
    · rw [h4]; rfl

/-- The addresses that Clear removes. -/
def clearPairs (r : Redis) (node : String) : List (String × Addr) :=
  (typesOf (r.load node)).flatMap fun ty => ((r.tys ty).filter fun a => a.node = node).map (ty, ·)

theorem clearCmds_eq (r : Redis) (node : String) : clearCmds r node =
    (clearPairs r node).flatMap (fun p => [.srem p.1 p.2, .hdelId p.2.actorId]) ++
      [.delLoad node, .hdelNode node] := by
  simp [clearCmds, clearPairs, List.flatMap_assoc, List.flatMap_map]

theorem mem_clearPairs {r : Redis} {node ty : String} {a : Addr} :
    (ty, a) ∈ clearPairs r node ↔
      hget (.actor ty) (r.load node) ≠ none ∧ a ∈ r.tys ty ∧ a.node = node := by
  simp only [clearPairs, List.mem_flatMap, List.mem_map, List.mem_filter, decide_eq_true_eq,
    Prod.mk.injEq]
  rw [← mem_typesOf_iff_hget]
  constructor
  · rintro ⟨t, ht, b, ⟨hb, hn⟩, rfl, rfl⟩; exact ⟨ht, hb, hn⟩
  · rintro ⟨ht, hb, hn⟩; exact ⟨ty, ht, a, ⟨hb, hn⟩, rfl, rfl⟩

/-- Effect of Clear. -/
theorem clear_redis (cfg : Nat → NodeCfg) (W : World) (n : Nat) :
    let r := W.redis
    let r' := (clear cfg W n).redis
    let node := (cfg n).nodeID
    (∀ id, r'.ids id = if (∃ p ∈ clearPairs r node, p.2.actorId = id) then none else r.ids id) ∧
    (∀ ty, r'.tys ty = (r.tys ty).filter fun a => (ty, a) ∉ clearPairs r node) ∧
    r'.nodes = set r.nodes node none ∧ r'.load = set r.load node [] := by
  simp only [clear, clearCmds_eq, pipe_append]
  have h := pipe_remove W.redis (clearPairs W.redis (cfg n).nodeID)
  simp only at h
  generalize W.redis.pipe ((clearPairs W.redis (cfg n).nodeID).flatMap
    (fun p => [.srem p.1 p.2, .hdelId p.2.actorId])) = r1 at h
  obtain ⟨h1, h2, h3, h4⟩ := h
  simp only [Redis.pipe, List.foldl_cons, List.foldl_nil, Redis.run, h3, h4]
  exact ⟨h1, h2, trivial, trivial⟩

/-! ### The refinement relation -/

/-- The actors of node `n` that count for field `f` of its hash. -/
def counts (n : Nat) (f : Field) (r : Reg) : Bool :=
  decide (r.node = n) && match f with
    | .total => true
    | .actor ty => decide (r.ty = ty)

/-- The world `W` implements the directory `d`; the nodes in `dead` have stopped. -/
structure Refines (cfg : Nat → NodeCfg) (own : String → Nat) (d : List Reg) (dead : List Nat)
    (W : World) : Prop where
  nodup : d.Pairwise fun a b => a.id ≠ b.id
  wf : ∀ r ∈ d, r.id ≠ "" ∧ r.ty ≠ "" ∧ own r.id = r.node ∧ r.node ∉ dead
  ids : ∀ id a, W.redis.ids id = some a ↔ ∃ r ∈ d, r.id = id ∧ r.addr cfg = a
  tys : ∀ ty a, a ∈ W.redis.tys ty ↔ ∃ r ∈ d, r.ty = ty ∧ r.addr cfg = a
  tysNodup : ∀ ty, (W.redis.tys ty).Nodup
  idmap : ∀ n, n ∉ dead → ∀ id, W.idmap n id = true ↔ ∃ r ∈ d, r.id = id ∧ r.node = n
  load : ∀ n f, (hget f (W.redis.load (cfg n).nodeID)).getD 0 = weightOf d (counts n f)
  fields : ∀ r ∈ d, hget (.actor r.ty) (W.redis.load (cfg r.node).nodeID) ≠ none ∧
    hget .total (W.redis.load (cfg r.node).nodeID) ≠ none
  nodes : ∀ r ∈ d, W.redis.nodes (cfg r.node).nodeID = some (nodeAddr cfg r.node)
  gone : ∀ n ∈ dead, W.redis.load (cfg n).nodeID = [] ∧ W.redis.nodes (cfg n).nodeID = none

theorem refines_init (cfg : Nat → NodeCfg) (own : String → Nat) :
    Refines cfg own [] [] World.init where
  nodup := .nil
  wf := by simp
  ids := by simp [World.init]
  tys := by simp [World.init]
  tysNodup := by simp [World.init]
  idmap := by simp [World.init]
  load := by simp [World.init, hget, weightOf]
  fields := by simp
  nodes := by simp
  gone := by simp

theorem reg_unique {d : List Reg} (h : d.Pairwise fun a b => a.id ≠ b.id) {r s : Reg}
    (hr : r ∈ d) (hs : s ∈ d) (he : r.id = s.id) : r = s := by
  induction d with
  | nil => cases hr
  | cons x d ih =>
    rw [List.pairwise_cons] at h
    rcases List.mem_cons.1 hr with h1 | h1 <;> rcases List.mem_cons.1 hs with h2 | h2
    · rw [h1, h2]
    · subst h1; exact absurd he (h.1 _ h2)
    · subst h2; exact absurd he.symm (h.1 _ h1)
    · exact ih h.2 h1 h2

theorem weightOf_append (d : List Reg) (r : Reg) (p : Reg → Bool) :
    weightOf (d ++ [r]) p = weightOf d p + if p r then r.weight else 0 := by
  by_cases h : p r <;> simp [weightOf, List.filter_append, h, List.sum_append]

/-- Removing the one entry with a given id. -/
theorem weightOf_remove {d : List Reg} (h : d.Pairwise fun a b => a.id ≠ b.id) {r : Reg} (hr : r ∈ d)
    (p : Reg → Bool) :
    weightOf (d.filter (·.id ≠ r.id)) p = weightOf d p - if p r then r.weight else 0 := by
  induction d with
  | nil => cases hr
  | cons x d ih =>
    rw [List.pairwise_cons] at h
    have hcons : ∀ (l : List Reg), weightOf (x :: l) p = (if p x then x.weight else 0) + weightOf l p := by
      intro l; by_cases hp : p x <;> simp [weightOf, hp]
    rcases List.mem_cons.1 hr with rfl | h1
    · have he : (r :: d).filter (·.id ≠ r.id) = d := by
        rw [List.filter_cons_of_neg (by simp)]
        exact List.filter_eq_self.2 fun a ha => by simpa using fun e => h.1 a ha e.symm
      rw [he, hcons]; omega
    · have hx : x.id ≠ r.id := h.1 _ h1
      rw [List.filter_cons_of_pos (by simpa using hx), hcons, hcons, ih h.2 h1]
      omega

theorem not_mem_remove {d : List Reg} {id : String} (h : ¬ ∃ r ∈ d, r.id = id) :
    d.filter (·.id ≠ id) = d :=
  List.filter_eq_self.2 fun a ha => by simpa using fun e => h ⟨a, ha, e⟩

end Braid.AddressBook
