import Verif.Mpsc.Keep

/-
C133, the queue of an actor: what `Pop` has returned is not kept alive by the queue.
-/
namespace Braid.Mpsc
variable {V : Type}

/-- C133. A value that a node still holds was passed to `Push` and has not been returned by `Pop`. -/
theorem C133_values {h : List (Ev V)} {s : St V} (hr : (sys V).Run h s) {a : Nat} {x : V}
    (hx : (s.heap a).val = some x) : (∃ p, Ev.pushInv p a x ∈ h) ∧ ∀ y, (a, y) ∉ popped h := by
  have K := clear_run hr
  refine ⟨(K.pushed a x hx).2, fun y hy => ?_⟩
  have := (K.popped _ hy).1
  rw [hx] at this
  cases this

/-- C133. The nodes that cannot be collected are exactly the tail and those of the calls of `Push` whose value has not
been returned. -/
theorem C133_nodes {h : List (Ev V)} {s : St V} (hr : (sys V).Run h s) (a : Nat) :
    Kept s a ↔ a = s.tail ∨ ∃ p x, Ev.pushInv p a x ∈ h ∧ ∀ y, (a, y) ∉ popped h := by
  have K := clear_run hr
  obtain ⟨order, k, pend, A, B, C⟩ := run_inv hr
  have hk : k ≤ order.length := by
    have := (List.getElem?_eq_some_iff.1 A.tailk).1
    rw [chain_length] at this
    omega
  constructor
  · intro ha
    have fin : ∀ x, (s.heap a).val = some x → ∃ p x, Ev.pushInv p a x ∈ h ∧ ∀ y, (a, y) ∉ popped h := by
      intro x hx
      obtain ⟨⟨p, h1⟩, h2⟩ := C133_values hr hx
      exact ⟨p, x, h1, h2⟩
    rcases kept_idx K A B hk ha with ⟨j, h1, h2⟩ | ⟨p, hp⟩
    · by_cases e : j = k
      · subst e
        rw [A.tailk] at h2
        cases h2
        exact .inl rfl
      · right
        cases j with
        | zero => omega
        | succ j =>
          rw [chain_get_succ] at h2
          cases ho : order[j]? with
          | none => rw [ho] at h2; cases h2
          | some e =>
            rw [ho] at h2
            cases h2
            exact fin _ (A.vals j e (by omega) ho)
    · right
      obtain ⟨x, hx⟩ := B.allocInv p a (by rw [hp]; rfl)
      rcases (B.invs p a x hx).2 with hm | ⟨h1, h2⟩
      · exact absurd (mem_chain hm) (A.alloc p a hp).2.1
      · exact fin x h2
  · rintro (rfl | ⟨p, x, h1, h2⟩)
    · exact ⟨_, .tail, .refl _⟩
    · rcases (B.invs p a x h1).2 with hm | ⟨h3, _⟩
      · obtain ⟨i, hi⟩ := List.mem_iff_getElem?.1 hm
        have hc : (chain order)[i + 1]? = some a := by rw [chain_get_succ, hi]; rfl
        rcases Nat.lt_or_ge i k with hlt | hge
        · have hm : (a, x) ∈ order.take k := by
            refine List.mem_of_getElem? (i := i) ?_
            rw [List.getElem?_take, if_pos hlt]; exact hi
          rw [← B.pops] at hm
          rcases List.mem_append.1 hm with hm | hm
          · exact absurd hm (h2 x)
          · cases hs : s.cons <;> rw [hs] at hm <;> simp [CPc.inflight] at hm
            · rw [← hm.2, (K.dec _ _ hs).2.2]; exact ⟨_, .tail, .refl _⟩
            · rw [← hm.2, (K.send _ _ _ hs).2.2]; exact ⟨_, .tail, .refl _⟩
        · refine idx_kept A (i + 1 - k) a ?_
          rw [show k + (i + 1 - k) = i + 1 by omega]
          exact hc
      · exact ⟨a, .fresh h3, .refl _⟩

/-- C133. So the queue keeps at most one node more than there are calls of `Push` whose value has not been returned. -/
theorem C133_bound {h : List (Ev V)} {s : St V} (hr : (sys V).Run h s) {l : List Nat} (hl : l.Nodup)
    (hk : ∀ a ∈ l, Kept s a) : l.length ≤ (waiting h).length + 1 := by
  have hsub : l.erase s.tail ⊆ waiting h := by
    intro a ha
    have h1 := (hl.mem_erase_iff).1 ha
    rcases (C133_nodes hr a).1 (hk a h1.2) with h2 | ⟨p, x, h2, h3⟩
    · exact absurd h2 h1.1
    · refine List.mem_filter.2 ⟨mem_calls.2 ⟨p, x, h2⟩, ?_⟩
      simp only [List.mem_map, Prod.exists, exists_and_right, exists_eq_right, decide_eq_true_eq, not_exists]
      exact h3
  have h1 := (List.subperm_of_subset (hl.erase _) hsub).length_le
  rw [List.length_erase] at h1
  split at h1 <;> omega

/-- C133. When every value has been returned, one node is left and it holds no value. -/
theorem C133_empty {h : List (Ev V)} {s : St V} (hr : (sys V).Run h s) (hw : waiting h = []) (a : Nat) :
    (Kept s a ↔ a = s.tail) ∧ (s.heap a).val = none := by
  have none_of : ∀ p x, Ev.pushInv p a x ∈ h → (∀ y, (a, y) ∉ popped h) → False := by
    intro p x h2 h3
    have : a ∈ waiting h := by
      refine List.mem_filter.2 ⟨mem_calls.2 ⟨p, x, h2⟩, ?_⟩
      simp only [List.mem_map, Prod.exists, exists_and_right, exists_eq_right, decide_eq_true_eq, not_exists]
      exact h3
    rw [hw] at this
    cases this
  constructor
  · rw [C133_nodes hr a]
    constructor
    · rintro (h1 | ⟨p, x, h2, h3⟩)
      · exact h1
      · exact (none_of p x h2 h3).elim
    · exact .inl
  · cases hv : (s.heap a).val with
    | none => rfl
    | some x =>
      obtain ⟨⟨p, h2⟩, h3⟩ := C133_values hr hv
      exact (none_of p x h2 h3).elim

/-- Two values are pushed and one of them is returned: the node of the other one and the tail are kept. -/
example : ∃ h s, (sys Nat).Run h s ∧ waiting h = [2] ∧ popped h = [(1, 7)] ∧ Kept s 2 ∧ ¬ Kept s 0 ∧
    (s.heap 1).val = none ∧ (s.heap 2).val = some 8 := by
  obtain ⟨s, hr, ht, h1, h2⟩ : ∃ s, (sys Nat).Run [.pushInv 0 1 7, .pushRet 1, .pushInv 0 2 8, .popInv, .popRet (some (1, 7))] s ∧
      s.tail = 1 ∧ (s.heap 1).val = none ∧ (s.heap 2).val = some 8 :=
    ⟨_, Lts.run_of_exec (M := sys Nat) (as := [.push 0 7, .prod 0, .prod 0, .prod 0, .prod 0, .push 0 8, .prod 0, .prod 0,
      .recv, .pop, .cons, .cons, .cons, .cons]) rfl, rfl, rfl, rfl⟩
  refine ⟨_, s, hr, by decide +kernel, by decide +kernel, (C133_nodes hr 2).2 ?_, fun hk => ?_, h1, h2⟩
  · exact .inr ⟨0, 8, by simp, by simp [popped]⟩
  · rcases (C133_nodes hr 0).1 hk with h | ⟨p, x, h, _⟩
    · rw [ht] at h; cases h
    · simp at h

end Braid.Mpsc
