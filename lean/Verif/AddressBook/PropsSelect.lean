import Verif.AddressBook.Props

/-
C36: which nodes `GetLowWeightNodeForActor` may return.
-/
namespace Braid.AddressBook
open Braid.AddressBook.Spec

/-- The first of the loads is kept if none is below it. -/
theorem lowLoop_first (l : List (String × Addr)) (ws : List Int) (w : Int) (best : Addr) (h : ∀ v ∈ ws, w ≤ v) :
    lowLoop l ws (w, best) = (w, best) := by
  induction l generalizing ws with
  | nil => simp [lowLoop]
  | cons e l ih =>
    cases ws with
    | nil => simp [lowLoop]
    | cons v ws =>
      have : ¬ v < w := by have := h v (by simp); omega
      simp only [lowLoop, if_neg this]
      exact ih ws fun v hv => h v (by simp [hv])

/-- Another order of the same map. -/
theorem isOrder_perm {nodes : String → Option Addr} {l l' : List (String × Addr)} (h : IsOrder nodes l) (hp : l.Perm l') :
    IsOrder nodes l' :=
  ⟨(hp.map _).nodup_iff.1 h.1, fun k a => by rw [← h.2 k a]; exact hp.mem_iff.symm⟩

/-- There is an entry with the least load. -/
theorem exists_least (weight : String → Option Int) : ∀ l : List (String × Addr), l ≠ [] →
    (∀ e ∈ l, ∃ w, weight e.1 = some w) → ∃ e ∈ l, ∃ w, weight e.1 = some w ∧ ∀ e' ∈ l, ∀ v, weight e'.1 = some v → w ≤ v := by
  intro l
  induction l with
  | nil => exact fun h => absurd rfl h
  | cons e l ih =>
    intro _ hw
    obtain ⟨w, hwe⟩ := hw e (by simp)
    by_cases hl : l = []
    · subst hl
      exact ⟨e, by simp, w, hwe, fun e' he' v hv => by
        rw [List.mem_singleton.1 he', hwe] at hv; cases hv; exact Int.le_refl _⟩
    · obtain ⟨e1, h1, w1, h2, h3⟩ := ih hl fun e' he' => hw e' (by simp [he'])
      by_cases hlt : w1 ≤ w
      · refine ⟨e1, by simp [h1], w1, h2, fun e' he' v hv => ?_⟩
        rcases List.mem_cons.1 he' with rfl | he'
        · rw [hwe] at hv; cases hv; exact hlt
        · exact h3 e' he' v hv
      · refine ⟨e, by simp, w, hwe, fun e' he' v hv => ?_⟩
        rcases List.mem_cons.1 he' with rfl | he'
        · rw [hwe] at hv; cases hv; exact Int.le_refl _
        · have := h3 e' he' v hv; omega

theorem exists_allSome (weight : String → Option Int) : ∀ l : List (String × Addr),
    (∀ e ∈ l, ∃ w, weight e.1 = some w) → ∃ ws, allSome (l.map fun e => weight e.1) = some ws ∧
      ∀ v ∈ ws, ∃ e ∈ l, weight e.1 = some v := by
  intro l
  induction l with
  | nil => exact fun _ => ⟨[], rfl, by simp⟩
  | cons e l ih =>
    intro h
    obtain ⟨w, hw⟩ := h e (by simp)
    obtain ⟨ws, h1, h2⟩ := ih fun e' he' => h e' (by simp [he'])
    refine ⟨w :: ws, by simp [allSome, hw, h1], fun v hv => ?_⟩
    rcases List.mem_cons.1 hv with rfl | hv
    · exact ⟨e, by simp, hw⟩
    · obtain ⟨e', h3, h4⟩ := h2 v hv
      exact ⟨e', by simp [h3], h4⟩

/-- **C36** is violated for every set of nodes whose loads can be read, whatever the loads: the nodes that may be returned,
depending on the two orders in which Go iterates over the map, are exactly the registered ones. So also the node with
the greatest load may be chosen. -/
theorem C36_any_node_refuted (weight : String → Option Int) (nodes : String → Option Addr)
    (order : List (String × Addr)) (ho : IsOrder nodes order)
    (hw : ∀ k a, nodes k = some a → ∃ w, weight k = some w ∧ w < 2 ^ 63 - 1)
    (hname : ∀ k a, nodes k = some a → a.node ≠ "") (a : Addr) :
    (∃ order1 order2, IsOrder nodes order1 ∧ IsOrder nodes order2 ∧ lowWeightNode weight order1 order2 = .ok a) ↔
      ∃ k, nodes k = some a := by
  rw [← maxInt_eq] at hw
  constructor
  · rintro ⟨o1, o2, -, h2, h⟩
    exact C36_registered weight nodes o1 o2 h2 a h
  · rintro ⟨k, hk⟩
    have hmem := (ho.2 k a).2 hk
    obtain ⟨s, t, hst⟩ := List.append_of_mem hmem
    have hread : ∀ e ∈ order, ∃ w, weight e.1 = some w := fun e he => by
      obtain ⟨w, h, -⟩ := hw e.1 e.2 ((ho.2 _ _).1 he)
      exact ⟨w, h⟩
    obtain ⟨e, he, w, hwe, hleast⟩ := exists_least weight order (List.ne_nil_of_mem hmem) hread
    obtain ⟨s', t', hst'⟩ := List.append_of_mem he
    have p1 : order.Perm (e :: (s' ++ t')) := by rw [hst']; exact List.perm_middle
    have p2 : order.Perm ((k, a) :: (s ++ t)) := by rw [hst]; exact List.perm_middle
    refine ⟨e :: (s' ++ t'), (k, a) :: (s ++ t), isOrder_perm ho p1, isOrder_perm ho p2, ?_⟩
    obtain ⟨ws, h1, h2⟩ := exists_allSome weight (s' ++ t') fun e' he' => hread e' (p1.mem_iff.2 (by simp [he']))
    have hlt : w < maxInt := by
      obtain ⟨w', h, hl⟩ := hw e.1 e.2 ((ho.2 _ _).1 he)
      rw [hwe] at h; cases h; exact hl
    have hle : ∀ v ∈ ws, w ≤ v := fun v hv => by
      obtain ⟨e', h3, h4⟩ := h2 v hv
      exact hleast e' (p1.mem_iff.2 (by simp [h3])) v h4
    simp only [lowWeightNode, List.length_cons, Nat.add_eq_zero_iff, Nat.one_ne_zero, and_false, if_false, List.map_cons, hwe,
      allSome, h1, Option.map_some, lowLoop, if_pos hlt, lowLoop_first _ _ _ _ hle, if_neg (hname k a hk)]

/-- The two nodes of the example of C36, the loads of which are 3 and 5: both may be returned. -/
example (a : Addr) : (∃ order1 order2, IsOrder (runOps exCfg exOps).redis.nodes order1 ∧
      IsOrder (runOps exCfg exOps).redis.nodes order2 ∧
      lowWeightNode (totalWeight (runOps exCfg exOps)) order1 order2 = .ok a) ↔
    ∃ k, (runOps exCfg exOps).redis.nodes k = some a := by
  have hk : ∀ k b, (runOps exCfg exOps).redis.nodes k = some b → (k, b) ∈ exOrder1 := fun k b => (exOrder_ok.1.2 k b).2
  refine C36_any_node_refuted _ _ exOrder1 exOrder_ok.1 (fun k b h => ?_) (fun k b h => ?_) a
  · have := hk k b h
    simp only [exOrder1, List.mem_cons, Prod.mk.injEq, List.not_mem_nil, or_false] at this
    rcases this with ⟨rfl, -⟩ | ⟨rfl, -⟩
    · exact ⟨3, by decide +kernel, by decide⟩
    · exact ⟨5, by decide +kernel, by decide⟩
  · have := hk k b h
    simp only [exOrder1, List.mem_cons, Prod.mk.injEq, List.not_mem_nil, or_false] at this
    rcases this with ⟨-, rfl⟩ | ⟨-, rfl⟩ <;> decide +kernel

/-- **C36** fails at the largest int: if all nodes have this load or, in theory, a greater one, none is found. -/
theorem C36_max_load_refuted (weight : String → Option Int) (nodes : String → Option Addr)
    (order1 order2 : List (String × Addr)) (h1 : IsOrder nodes order1)
    (hw : ∀ k a, nodes k = some a → ∃ w, weight k = some w ∧ 2 ^ 63 - 1 ≤ w) :
    lowWeightNode weight order1 order2 = .error .noNodes := by
  rw [← maxInt_eq] at hw
  have hread : ∀ e ∈ order1, ∃ w, weight e.1 = some w ∧ maxInt ≤ w := fun e he => hw e.1 e.2 ((h1.2 _ _).1 he)
  obtain ⟨ws, h2, h3⟩ := exists_allSome weight order1 fun e he => by
    obtain ⟨w, h, -⟩ := hread e he
    exact ⟨w, h⟩
  have hle : ∀ v ∈ ws, maxInt ≤ v := fun v hv => by
    obtain ⟨e, he, h⟩ := h3 v hv
    obtain ⟨w, h', hl⟩ := hread e he
    rw [h] at h'; cases h'; exact hl
  unfold lowWeightNode
  split
  · rfl
  · simp only [h2, lowLoop_first order2 ws maxInt Addr.zero hle]
    exact if_pos rfl

example : lowWeightNode (fun _ => some (2 ^ 63 - 1)) exOrder1 exOrder2 = .error .noNodes :=
  C36_max_load_refuted _ _ _ _ exOrder_ok.1 fun _ _ _ => ⟨_, rfl, Int.le_refl _⟩

end Braid.AddressBook
