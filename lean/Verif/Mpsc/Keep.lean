import Verif.Mpsc.Props
import Batteries.Data.List.Perm

/-
What a queue keeps alive (C133): specification and helper lemmas.
-/
namespace Braid.Mpsc
variable {V : Type}

/-! ### Specification -/

/-- From node `a` the pointers lead to node `b`. -/
inductive Reaches (s : St V) : Nat → Nat → Prop
  | refl (a : Nat) : Reaches s a a
  | step {a b c : Nat} (h : (s.heap a).next = some b) (t : Reaches s b c) : Reaches s a c

/-- The pointers to nodes that are used again: those of the queue, and the local variables of `Push` up to the store of
`prev.next` (lib/mpsc/mpsc.go:40-46) and of `Pop` up to the clearing of the value (55-60). -/
inductive Root (s : St V) : Nat → Prop
  | head : Root s s.head
  | tail : Root s s.tail
  | fresh {p n : Nat} (h : s.prods p = .alloc n) : Root s n
  | prev {p a n : Nat} (h : s.prods p = .link a n) : Root s a
  | node {p a n : Nat} (h : s.prods p = .link a n) : Root s n
  | next {n : Nat} (h : s.cons = .take n) : Root s n

/-- The node cannot be collected. -/
def Kept (s : St V) (a : Nat) : Prop := ∃ r, Root s r ∧ Reaches s r a

/-- The numbers of the calls of `Push` in a history. -/
def calls : List (Ev V) → List Nat
  | [] => []
  | .pushInv _ id _ :: h => id :: calls h
  | _ :: h => calls h

/-- Those whose value has not been returned by `Pop`. -/
def waiting (h : List (Ev V)) : List Nat := (calls h).filter fun id => id ∉ (popped h).map Prod.fst

/-! ### Helper lemmas -/

theorem calls_append (h h' : List (Ev V)) : calls (h ++ h') = calls h ++ calls h' := by
  induction h with
  | nil => rfl
  | cons e h ih => cases e <;> simp [calls, ih]

theorem mem_calls {h : List (Ev V)} {id : Nat} : id ∈ calls h ↔ ∃ p x, Ev.pushInv p id x ∈ h := by
  induction h with
  | nil => simp [calls]
  | cons e h ih =>
    cases e with
    | pushInv p i x =>
      simp only [calls, List.mem_cons, ih, Ev.pushInv.injEq]
      constructor
      · rintro (rfl | ⟨q, y, h⟩)
        · exact ⟨p, x, .inl ⟨rfl, rfl, rfl⟩⟩
        · exact ⟨q, y, .inr h⟩
      · rintro ⟨q, y, ⟨rfl, rfl, rfl⟩ | h⟩
        · exact .inl rfl
        · exact .inr ⟨q, y, h⟩
    | _ => simp [calls, ih]

/-- What is cleared stays cleared. -/
structure Clear (h : List (Ev V)) (s : St V) : Prop where
  stub : (s.heap 0).val = none
  pos : 0 < s.fresh
  pushed : ∀ a x, (s.heap a).val = some x → a < s.fresh ∧ ∃ p, Ev.pushInv p a x ∈ h
  popped : ∀ e ∈ popped h, (s.heap e.1).val = none ∧ e.1 < s.fresh
  dec : ∀ n v, s.cons = .dec n v → (s.heap n).val = none ∧ n < s.fresh ∧ n = s.tail
  send : ∀ n v c, s.cons = .send n v c → (s.heap n).val = none ∧ n < s.fresh ∧ n = s.tail
  taken : ∀ n, s.cons = .take n → (s.heap s.tail).next = some n
  passed : ∀ a, a < s.fresh → (s.heap a).val = none → a ≠ s.tail → (s.heap a).next ≠ none

theorem clear_init : Clear [] (init V) := by
  constructor <;> simp [init, Braid.Mpsc.popped]

theorem clear_prod {h : List (Ev V)} {s s' : St V} {p : Nat} {evs : List (Ev V)} (hr : (sys V).Run h s) (hi : Clear h s)
    (hs : stepProd s p = some (s', evs)) : Clear (h ++ evs) s' := by
  unfold stepProd at hs
  split at hs
  · cases hs
  · cases hs
    exact ⟨hi.stub, hi.pos, by simpa using hi.pushed, by simpa using hi.popped, hi.dec, hi.send, hi.taken, hi.passed⟩
  · rename_i prev n hp
    cases hs
    have hv : ∀ a, (upd s.heap prev { s.heap prev with next := some n } a).val = (s.heap a).val := by
      intro a; rw [upd_apply]; split <;> simp_all
    refine ⟨?_, hi.pos, ?_, ?_, ?_, ?_, ?_, ?_⟩ <;> simp only [hv, List.append_nil]
    · exact hi.stub
    · exact hi.pushed
    · exact hi.popped
    · exact hi.dec
    · exact hi.send
    · intro m hm
      obtain ⟨order, k, pend, A, B, C⟩ := run_inv hr
      obtain ⟨i, h1, h2, h3⟩ := A.link p prev n hp
      have h4 := hi.taken m hm
      rw [upd_of_ne _ _ (by rintro rfl; rw [h3] at h4; cases h4)]
      exact h4
    · intro a h1 h2 h3
      rw [upd_apply]
      split
      · simp
      · exact hi.passed a h1 h2 h3
  · cases hs
    exact ⟨hi.stub, hi.pos, by simpa using hi.pushed, by simpa using hi.popped, hi.dec, hi.send, hi.taken, hi.passed⟩
  · cases hs
    refine ⟨hi.stub, hi.pos, ?_, ?_, hi.dec, hi.send, hi.taken, hi.passed⟩
    · intro a x hx; obtain ⟨h1, q, h2⟩ := hi.pushed a x hx; exact ⟨h1, q, by simp [h2]⟩
    · rw [popped_append]; simpa [Braid.Mpsc.popped] using hi.popped

theorem clear_cons {h : List (Ev V)} {s s' : St V} {evs : List (Ev V)} (hr : (sys V).Run h s) (hi : Clear h s)
    (hs : stepCons s = some (s', evs)) : Clear (h ++ evs) s' := by
  unfold stepCons at hs
  split at hs
  · cases hs
  · cases hs
  · split at hs
    · cases hs
      refine ⟨hi.stub, hi.pos, by simpa using hi.pushed, by simpa using hi.popped, by simp, by simp, ?_, hi.passed⟩
      intro m hm; cases hm; assumption
    · cases hs
      refine ⟨hi.stub, hi.pos, ?_, ?_, by simp, by simp, by simp, hi.passed⟩
      · intro a x hx; obtain ⟨h1, q, h2⟩ := hi.pushed a x hx; exact ⟨h1, q, by simp [h2]⟩
      · rw [popped_append]; simpa [Braid.Mpsc.popped] using hi.popped
  · rename_i n hc
    cases hs
    obtain ⟨order, k, pend, A, B, C⟩ := run_inv hr
    have hn := A.take n hc
    have hlt : n < s.fresh := A.lt n (List.mem_of_getElem? hn)
    have hnext : (s.heap s.tail).next ≠ none := by
      rw [hi.taken n hc]; simp
    have hv : ∀ a, (upd s.heap n { s.heap n with val := none } a).val = if a = n then none else (s.heap a).val := by
      intro a; rw [upd_apply]; split <;> simp_all
    have hx : ∀ a, (upd s.heap n { s.heap n with val := none } a).next = (s.heap a).next := by
      intro a; rw [upd_apply]; split <;> simp_all
    refine ⟨?_, hi.pos, ?_, ?_, ?_, ?_, ?_, ?_⟩ <;> simp only [hv, hx, List.append_nil]
    · split
      · rfl
      · exact hi.stub
    · intro a x h1
      split at h1
      · cases h1
      · exact hi.pushed a x h1
    · intro e he
      refine ⟨?_, (hi.popped e he).2⟩
      split
      · rfl
      · exact (hi.popped e he).1
    · intro m v hm
      cases hm
      exact ⟨if_pos rfl, hlt, rfl⟩
    · simp
    · simp
    · intro a h1 h2 h3
      split at h2
      · contradiction
      · by_cases e : a = s.tail
        · subst e; exact hnext
        · exact hi.passed a h1 h2 e
  · rename_i n v hc
    cases hs
    refine ⟨hi.stub, hi.pos, by simpa using hi.pushed, by simpa using hi.popped, by simp, ?_, by simp, hi.passed⟩
    intro m w c hm
    cases hm
    exact hi.dec n v hc
  · rename_i n v c hc
    cases hs
    refine ⟨hi.stub, hi.pos, ?_, ?_, by simp, by simp, by simp, hi.passed⟩
    · intro a x hx; obtain ⟨h1, q, h2⟩ := hi.pushed a x hx; exact ⟨h1, q, by simp [h2]⟩
    · rw [popped_append]
      intro e he
      rcases List.mem_append.1 he with he | he
      · exact hi.popped e he
      · cases v with
        | none => simp [Braid.Mpsc.popped] at he
        | some x =>
          simp [Braid.Mpsc.popped] at he
          subst he
          exact ⟨(hi.send n _ c hc).1, (hi.send n _ c hc).2.1⟩

theorem clear_step {h : List (Ev V)} {s s' : St V} {a : Act V} {evs : List (Ev V)} (hr : (sys V).Run h s)
    (hi : Clear h s) (hs : (sys V).step s a = some (s', evs)) : Clear (h ++ evs) s' := by
  change step s a = _ at hs
  unfold step at hs
  split at hs
  · rename_i p x
    split at hs
    · cases hs
      obtain ⟨order, k, pend, A, B, C⟩ := run_inv hr
      have hlt : s.tail < s.fresh := A.lt _ (List.mem_of_getElem? A.tailk)
      have hne : ∀ a, a < s.fresh → upd s.heap s.fresh ⟨none, some x⟩ a = s.heap a := fun a h => upd_of_ne _ _ (by omega)
      refine ⟨?_, Nat.succ_pos _, ?_, ?_, ?_, ?_, ?_, ?_⟩ <;> dsimp only
      · rw [hne 0 hi.pos]; exact hi.stub
      · intro a y hy
        rw [upd_apply] at hy
        split at hy
        · rename_i e
          subst e
          cases hy
          exact ⟨Nat.lt_succ_self _, p, by simp⟩
        · obtain ⟨h1, q, h2⟩ := hi.pushed a y hy
          exact ⟨Nat.lt_succ_of_lt h1, q, by simp [h2]⟩
      · rw [popped_append]
        intro e he
        have he : e ∈ Braid.Mpsc.popped h := by simpa [Braid.Mpsc.popped] using he
        obtain ⟨h1, h2⟩ := hi.popped e he
        rw [hne _ h2]
        exact ⟨h1, Nat.lt_succ_of_lt h2⟩
      · intro n v hn
        obtain ⟨h1, h2, h3⟩ := hi.dec n v hn
        rw [hne _ h2]
        exact ⟨h1, Nat.lt_succ_of_lt h2, h3⟩
      · intro n v c hn
        obtain ⟨h1, h2, h3⟩ := hi.send n v c hn
        rw [hne _ h2]
        exact ⟨h1, Nat.lt_succ_of_lt h2, h3⟩
      · intro n hn
        rw [hne _ hlt]
        exact hi.taken n hn
      · intro a h1 h2 h3
        by_cases e : a < s.fresh
        · rw [hne _ e] at h2 ⊢
          exact hi.passed a e h2 h3
        · have : a = s.fresh := by omega
          subst this
          rw [upd_same] at h2
          cases h2
    · cases hs
  · exact clear_prod hr hi hs
  · split at hs
    · cases hs
      exact ⟨hi.stub, hi.pos, by simpa using hi.pushed, by simpa using hi.popped, by simp, by simp, by simp, hi.passed⟩
    · cases hs
  · have key : ∀ s', { s with cons := CPc.load } = s' → Clear (h ++ [Ev.popInv]) s' := by
      rintro _ rfl
      refine ⟨hi.stub, hi.pos, ?_, ?_, by simp, by simp, by simp, hi.passed⟩
      · intro a x hx; obtain ⟨h1, q, h2⟩ := hi.pushed a x hx; exact ⟨h1, q, by simp [h2]⟩
      · rw [popped_append]; simpa [Braid.Mpsc.popped] using hi.popped
    split at hs
    · cases hs; exact key _ rfl
    · cases hs; exact key _ rfl
    · cases hs
  · exact clear_cons hr hi hs

theorem clear_run {h : List (Ev V)} {s : St V} (hr : (sys V).Run h s) : Clear h s :=
  Lts.Run.invariant (P := Clear) clear_init (fun _ _ _ _ _ hr hi hs => clear_step hr hi hs) hr

/-- Before the tail every value is cleared. -/
theorem before_tail {h : List (Ev V)} {s : St V} (K : Clear h s) {order : List (Nat × V)} {k i a : Nat}
    (B : InvB h s order k) (hi : i ≤ k) (ha : (chain order)[i]? = some a) : (s.heap a).val = none := by
  cases i with
  | zero => simp [chain] at ha; subst ha; exact K.stub
  | succ i =>
    rw [chain_get_succ] at ha
    cases ho : order[i]? with
    | none => rw [ho] at ha; cases ha
    | some e =>
      rw [ho] at ha
      cases ha
      have hm : e ∈ order.take k := by
        refine List.mem_of_getElem? (i := i) ?_
        rw [List.getElem?_take, if_pos (by omega)]; exact ho
      rw [← B.pops] at hm
      rcases List.mem_append.1 hm with hm | hm
      · exact (K.popped e hm).1
      · cases hc : s.cons <;> rw [hc] at hm <;> simp [CPc.inflight] at hm
        · obtain ⟨x, h1, h2⟩ := hm
          subst h2
          exact (K.dec _ _ hc).1
        · obtain ⟨x, h1, h2⟩ := hm
          subst h2
          exact (K.send _ _ _ hc).1

theorem reach_idx {s : St V} {order : List (Nat × V)} {k : Nat} (A : InvA s order k) {r a : Nat}
    (h : Reaches s r a) : ∀ i, k ≤ i → (chain order)[i]? = some r → ∃ j, k ≤ j ∧ (chain order)[j]? = some a := by
  induction h with
  | refl a => exact fun i h1 h2 => ⟨i, h1, h2⟩
  | step hn t ih =>
    intro i h1 h2
    rcases A.next i _ h2 with h | ⟨b, h3, h4⟩
    · rw [h] at hn; cases hn
    · rw [h4] at hn
      cases hn
      exact ih (i + 1) (by omega) h3

/-- Every node kept is in the list at or after the tail, or is about to be put there. -/
theorem kept_idx {h : List (Ev V)} {s : St V} {order : List (Nat × V)} {k : Nat} (K : Clear h s) (A : InvA s order k)
    (B : InvB h s order k) (hk : k ≤ order.length) {a : Nat} (ha : Kept s a) :
    (∃ j, k ≤ j ∧ (chain order)[j]? = some a) ∨ ∃ p, s.prods p = .alloc a := by
  obtain ⟨r, h1, h2⟩ := ha
  cases h1 with
  | head => exact .inl (reach_idx A h2 _ hk A.last)
  | tail => exact .inl (reach_idx A h2 _ (Nat.le_refl k) A.tailk)
  | @fresh p n h1 =>
    cases h2 with
    | refl => exact .inr ⟨p, h1⟩
    | step hn t => rw [(A.alloc p _ h1).2.2] at hn; cases hn
  | @prev p _ n h1 =>
    obtain ⟨i, h3, h4, h5⟩ := A.link p _ _ h1
    refine .inl (reach_idx A h2 i ?_ h3)
    rcases Nat.lt_or_ge i k with hlt | hge
    · have hv := before_tail K B (Nat.le_of_lt hlt) h3
      have hne : r ≠ s.tail := by
        rintro rfl
        exact absurd (nodup_idx A.nodup h3 A.tailk) (by omega)
      exact absurd h5 (K.passed r (A.lt _ (List.mem_of_getElem? h3)) hv hne)
    · exact hge
  | @node p c n h1 =>
    obtain ⟨i, h3, h4, h5⟩ := A.link p _ _ h1
    refine .inl (reach_idx A h2 (i + 1) ?_ h4)
    rcases Nat.lt_or_ge i k with hlt | hge
    · have hv := before_tail K B (Nat.le_of_lt hlt) h3
      have hne : c ≠ s.tail := by
        rintro rfl
        exact absurd (nodup_idx A.nodup h3 A.tailk) (by omega)
      exact absurd h5 (K.passed c (A.lt _ (List.mem_of_getElem? h3)) hv hne)
    · omega
  | next h1 => exact .inl (reach_idx A h2 (k + 1) (by omega) (A.take _ h1))

theorem reach_snoc {s : St V} {a b c : Nat} (h : Reaches s a b) (hn : (s.heap b).next = some c) : Reaches s a c := by
  induction h with
  | refl a => exact .step hn (.refl _)
  | step h t ih => exact .step h (ih hn)

/-- Every node at or after the tail is kept. -/
theorem idx_kept {s : St V} {order : List (Nat × V)} {k : Nat} (A : InvA s order k) (d : Nat) :
    ∀ a, (chain order)[k + d]? = some a → Kept s a := by
  induction d with
  | zero =>
    intro a ha
    rw [Nat.add_zero, A.tailk] at ha
    cases ha
    exact ⟨_, .tail, .refl _⟩
  | succ d ih =>
    intro b hb
    have hb' : (chain order)[k + d + 1]? = some b := hb
    cases ha : (chain order)[k + d]? with
    | none =>
      have := List.getElem?_eq_none_iff.1 ha
      rw [List.getElem?_eq_none (by omega)] at hb
      cases hb
    | some a =>
      rcases A.next _ a ha with h | ⟨c, h1, h2⟩
      · obtain ⟨p, hp⟩ := A.missing _ a b ha hb' h
        exact ⟨b, .node hp, .refl _⟩
      · rw [hb'] at h1
        cases h1
        obtain ⟨r, h3, h4⟩ := ih a ha
        exact ⟨r, h3, reach_snoc h4 h2⟩

end Braid.Mpsc
