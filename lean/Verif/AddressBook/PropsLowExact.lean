import Verif.AddressBook.PropsSelect

/-
Property C36: exactly which node is returned for two orders of the map.
-/
namespace Braid.AddressBook
open Spec

/-- Specification: the least of the values is `w`, and `i` is the first place where it is. -/
def FirstLeast (ws : List Int) (i : Nat) (w : Int) : Prop :=
  ws[i]? = some w ∧ (∀ v ∈ ws, w ≤ v) ∧ ∀ j v, j < i → ws[j]? = some v → w < v

theorem firstLeast_unique {ws : List Int} {i j : Nat} {w v : Int} (h : FirstLeast ws i w) (h' : FirstLeast ws j v) : i = j := by
  obtain ⟨a1, a2, a3⟩ := h
  obtain ⟨b1, b2, b3⟩ := h'
  have h1 := a2 v (List.mem_of_getElem? b1)
  have h2 := b2 w (List.mem_of_getElem? a1)
  rcases Nat.lt_trichotomy i j with hlt | rfl | hlt
  · have := b3 i w hlt a1; omega
  · rfl
  · have := a3 j v hlt b1; omega

/-- The loop keeps what it has, or finds the first of the least values. -/
theorem lowLoop_place (l : List (String × Addr)) (ws : List Int) (hl : l.length = ws.length) (lo : Int) (best : Addr) :
    (lowLoop l ws (lo, best) = (lo, best) ∧ ∀ v ∈ ws, lo ≤ v) ∨
    ∃ i k, l[i]? = some (k, (lowLoop l ws (lo, best)).2) ∧ FirstLeast ws i (lowLoop l ws (lo, best)).1 ∧
      (lowLoop l ws (lo, best)).1 < lo := by
  induction l generalizing ws lo best with
  | nil =>
    cases ws with
    | nil => exact .inl ⟨rfl, by simp⟩
    | cons => cases hl
  | cons e l ih =>
    obtain ⟨k, a⟩ := e
    cases ws with
    | nil => cases hl
    | cons w ws =>
      have hl' : l.length = ws.length := by simpa using hl
      simp only [lowLoop]
      by_cases hw : w < lo
      · rw [if_pos hw]
        rcases ih ws hl' w a with ⟨h1, h2⟩ | ⟨i, k', h1, ⟨h2, h3, h4⟩, h5⟩
        · refine .inr ⟨0, k, by rw [h1]; rfl, ⟨by rw [h1]; rfl, ?_, fun j v hj => absurd hj (Nat.not_lt_zero _)⟩, by rw [h1]; exact hw⟩
          rw [h1]
          intro v hv
          rcases List.mem_cons.1 hv with rfl | hv
          · exact Int.le_refl _
          · exact h2 v hv
        · refine .inr ⟨i + 1, k', by simpa using h1, ⟨by simpa using h2, ?_, ?_⟩, by omega⟩
          · intro v hv
            rcases List.mem_cons.1 hv with rfl | hv
            · omega
            · exact h3 v hv
          · intro j v hj hv
            cases j with
            | zero => simp only [List.getElem?_cons_zero, Option.some.injEq] at hv; omega
            | succ j => exact h4 j v (by omega) (by simpa using hv)
      · rw [if_neg hw]
        rcases ih ws hl' lo best with ⟨h1, h2⟩ | ⟨i, k', h1, ⟨h2, h3, h4⟩, h5⟩
        · refine .inl ⟨h1, fun v hv => ?_⟩
          rcases List.mem_cons.1 hv with rfl | hv
          · omega
          · exact h2 v hv
        · refine .inr ⟨i + 1, k', by simpa using h1, ⟨by simpa using h2, ?_, ?_⟩, h5⟩
          · intro v hv
            rcases List.mem_cons.1 hv with rfl | hv
            · omega
            · exact h3 v hv
          · intro j v hj hv
            cases j with
            | zero => simp only [List.getElem?_cons_zero, Option.some.injEq] at hv; omega
            | succ j => exact h4 j v (by omega) (by simpa using hv)

/-- C36, exactly which node is returned, for any two orders of as many nodes: the one that is in the second order where the first
least load is in the first order. -/
theorem C36_place_exact (weight : String → Option Int) (order1 order2 : List (String × Addr)) (hlen : order1.length = order2.length)
    (ws : List Int) (hws : order1.map (fun e => weight e.1) = ws.map some) (hmax : ∀ w ∈ ws, w < 2 ^ 63 - 1)
    (hname : ∀ e ∈ order2, e.2.node ≠ "") (a : Addr) :
    lowWeightNode weight order1 order2 = .ok a ↔ ∃ i w k, FirstLeast ws i w ∧ order2[i]? = some (k, a) := by
  have hl : order2.length = ws.length := by
    have := congrArg List.length hws
    simp only [List.length_map] at this
    omega
  by_cases h0 : order1.length = 0
  · have : order2 = [] := List.eq_nil_of_length_eq_zero (by omega)
    subst this
    simp [lowWeightNode, h0]
  · simp only [lowWeightNode, if_neg h0, allSome_eq_some.2 hws]
    rcases lowLoop_place order2 ws hl maxInt Addr.zero with ⟨-, h2⟩ | ⟨i, k, h1, h2, -⟩
    · cases ws with
      | nil => exact absurd hl (by simp only [List.length_nil]; omega)
      | cons w ws =>
        have := h2 w List.mem_cons_self
        have := hmax w List.mem_cons_self
        unfold maxInt at *
        omega
    · rw [if_neg (hname _ (List.mem_of_getElem? h1))]
      simp only [Except.ok.injEq]
      constructor
      · intro h
        exact ⟨i, _, k, h2, by rw [← h]; exact h1⟩
      · rintro ⟨j, w, k', h3, h4⟩
        have := firstLeast_unique h2 h3
        subst this
        rw [h1] at h4
        simp only [Option.some.injEq, Prod.mk.injEq] at h4
        exact h4.2

/-- C36, exactly: it is right iff the node that is in the second order where the first least load is in the first order has a load that is
least as well. -/
theorem C36_exact (weight : String → Option Int) (nodes : String → Option Addr) (order1 order2 : List (String × Addr))
    (h1 : IsOrder nodes order1) (h2 : IsOrder nodes order2) (hlen : order1.length = order2.length)
    (ws : List Int) (hws : order1.map (fun e => weight e.1) = ws.map some) (hmax : ∀ w ∈ ws, w < 2 ^ 63 - 1)
    (hname : ∀ e ∈ order2, e.2.node ≠ "") (i : Nat) (w : Int) (hi : FirstLeast ws i w) (k : String) (a : Addr)
    (hk : order2[i]? = some (k, a)) :
    lowWeightNode weight order1 order2 = .ok a ∧
    ((∃ v, weight k = some v ∧ ∀ k' a' v', nodes k' = some a' → weight k' = some v' → v ≤ v') ↔ weight k = some w) := by
  refine ⟨(C36_place_exact weight order1 order2 hlen ws hws hmax hname a).2 ⟨i, w, k, hi, hk⟩, ?_⟩
  have hall : ∀ k' a' v', nodes k' = some a' → weight k' = some v' → v' ∈ ws := by
    intro k' a' v' hn hv
    have hm : weight k' ∈ order1.map (fun e => weight e.1) := List.mem_map.2 ⟨(k', a'), (h1.2 k' a').2 hn, rfl⟩
    rw [hws, hv] at hm
    simpa using hm
  have hfirst : ∃ k1 a1, nodes k1 = some a1 ∧ weight k1 = some w := by
    have hm : some w ∈ order1.map (fun e => weight e.1) := by
      rw [hws]; exact List.mem_map.2 ⟨w, List.mem_of_getElem? hi.1, rfl⟩
    obtain ⟨⟨k1, a1⟩, hm, he⟩ := List.mem_map.1 hm
    exact ⟨k1, a1, (h1.2 k1 a1).1 hm, he⟩
  constructor
  · rintro ⟨v, hv, hle⟩
    obtain ⟨k1, a1, hn, hw1⟩ := hfirst
    have h3 := hle k1 a1 w hn hw1
    have h4 := hi.2.1 v (hall k a v ((h2.2 k a).1 (List.mem_of_getElem? hk)) hv)
    rw [hv, Int.le_antisymm h3 h4]
  · intro hv
    exact ⟨w, hv, fun k' a' v' hn hv' => hi.2.1 v' (hall k' a' v' hn hv')⟩

/-- The example of C36: the least load is first in the first order, and the other node is first in the second one. -/
example : lowWeightNode (totalWeight (runOps exCfg exOps)) exOrder1 exOrder2 = .ok (nodeAddr exCfg 1) :=
  (C36_exact _ _ exOrder1 exOrder2 exOrder_ok.1 exOrder_ok.2 rfl [3, 5] (by decide +kernel) (by decide) (by decide +kernel) 0 3
    ⟨rfl, by decide, fun _ _ h => absurd h (Nat.not_lt_zero _)⟩ "aa" _ rfl).1

end Braid.AddressBook
