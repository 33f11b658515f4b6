import Verif.Mpsc.Inv

/- Preservation of the invariant by each atomic step. -/
namespace Braid.Mpsc
variable {V : Type}

theorem inv_push {h : List (Ev V)} {s : St V} {p : Nat} {x : V} (hi : Inv h s)
    (hp : s.prods p = .idle) :
    Inv (h ++ [.pushInv p s.fresh x])
      { s with heap := upd s.heap s.fresh ⟨none, some x⟩, fresh := s.fresh + 1,
               prods := upd s.prods p (.alloc s.fresh) } := by
  obtain ⟨order, k, pend, A, B, C⟩ := hi
  have hne : ∀ a ∈ chain order, a ≠ s.fresh := fun a ha => Nat.ne_of_lt (A.lt a ha)
  have hget : ∀ i a, (chain order)[i]? = some a → a ≠ s.fresh := fun i a hia =>
    hne a (List.mem_of_getElem? hia)
  refine ⟨order, k, pend, ?_, ?_, ?_⟩
  · constructor
    · intro a ha; have := A.lt a ha; simp; omega
    · exact A.nodup
    · exact A.last
    · exact A.tailk
    · intro i a hia
      simpa [upd_of_ne _ _ (hget i a hia)] using A.next i a hia
    · intro q a b hq
      have hqp : q ≠ p := by rintro rfl; simp at hq
      simp only [upd_of_ne _ _ hqp] at hq
      obtain ⟨i, h1, h2, h3⟩ := A.link q a b hq
      exact ⟨i, h1, h2, by simpa [upd_of_ne _ _ (hget i a h1)] using h3⟩
    · intro i a b h1 h2 h3
      simp only [upd_of_ne _ _ (hget i a h1)] at h3
      obtain ⟨q, hq⟩ := A.missing i a b h1 h2 h3
      have hqp : q ≠ p := by rintro rfl; rw [hp] at hq; cases hq
      exact ⟨q, by simpa [upd_of_ne _ _ hqp] using hq⟩
    · intro q n hq
      by_cases hqp : q = p
      · subst hqp
        simp at hq; subst hq
        exact ⟨Nat.lt_succ_self _, fun hm => hne _ hm rfl, by simp⟩
      · simp only [upd_of_ne _ _ hqp] at hq
        obtain ⟨h1, h2, h3⟩ := A.alloc q n hq
        refine ⟨Nat.lt_succ_of_lt h1, h2, ?_⟩
        simpa [upd_of_ne _ _ (Nat.ne_of_lt h1)] using h3
    · intro q r n hq hr
      by_cases hqp : q = p <;> by_cases hrp : r = p
      · rw [hqp, hrp]
      · subst hqp; simp [PPc.id?] at hq; subst hq
        simp only [upd_of_ne _ _ hrp] at hr
        exact absurd (A.idlt r _ hr) (Nat.lt_irrefl _)
      · subst hrp; simp [PPc.id?] at hr; subst hr
        simp only [upd_of_ne _ _ hqp] at hq
        exact absurd (A.idlt q _ hq) (Nat.lt_irrefl _)
      · simp only [upd_of_ne _ _ hqp] at hq
        simp only [upd_of_ne _ _ hrp] at hr
        exact A.inj q r n hq hr
    · intro q n hq
      by_cases hqp : q = p
      · subst hqp; simp [PPc.id?] at hq; subst hq; exact Nat.lt_succ_self _
      · simp only [upd_of_ne _ _ hqp] at hq; exact Nat.lt_succ_of_lt (A.idlt q n hq)
    · intro i e hk he
      have := hne _ (mem_chain (List.mem_of_getElem? he))
      simpa [upd_of_ne _ _ this] using A.vals i e hk he
    · exact A.take
    · exact A.inflightSome
  · constructor
    · intro q id y hm
      simp only [List.mem_append, List.mem_singleton] at hm
      rcases hm with hm | hm
      · obtain ⟨h1, h2⟩ := B.invs q id y hm
        refine ⟨Nat.lt_succ_of_lt h1, ?_⟩
        rcases h2 with h2 | ⟨h2, h3⟩
        · exact Or.inl h2
        · have hqp : q ≠ p := by rintro rfl; rw [hp] at h2; cases h2
          right; refine ⟨by simpa [upd_of_ne _ _ hqp] using h2, ?_⟩
          simpa [upd_of_ne _ _ (Nat.ne_of_lt h1)] using h3
      · injection hm with h1 h2 h3; subst h1 h2 h3
        exact ⟨Nat.lt_succ_self _, Or.inr ⟨by simp, by simp⟩⟩
    · intro q n hq
      by_cases hqp : q = p
      · subst hqp; simp [PPc.id?] at hq; subst hq; exact ⟨x, by simp⟩
      · simp only [upd_of_ne _ _ hqp] at hq
        obtain ⟨y, hy⟩ := B.allocInv q n hq
        exact ⟨y, by simp [hy]⟩
    · intro q r id y z h1 h2
      simp only [List.mem_append, List.mem_singleton] at h1 h2
      rcases h1 with h1 | h1 <;> rcases h2 with h2 | h2
      · exact B.uniq q r id y z h1 h2
      · injection h2 with a1 a2 a3; subst a2; exact absurd (B.invs _ _ _ h1).1 (Nat.lt_irrefl _)
      · injection h1 with a1 a2 a3; subst a2; exact absurd (B.invs _ _ _ h2).1 (Nat.lt_irrefl _)
      · injection h1 with a1 a2 a3; injection h2 with b1 b2 b3
        exact ⟨a1.trans b1.symm, a3.trans b3.symm⟩
    · intro q n hq
      simp only [List.mem_append, List.mem_singleton, reduceCtorEq, or_false]
      by_cases hqp : q = p
      · subst hqp; simp [PPc.id?] at hq; subst hq
        intro hm; exact absurd (B.retlt _ hm) (Nat.lt_irrefl _)
      · simp only [upd_of_ne _ _ hqp] at hq; exact B.retd q n hq
    · intro q id y hm
      simp only [List.mem_append, List.mem_singleton] at hm
      rcases hm with hm | hm
      · rcases B.done q id y hm with h1 | h1
        · left; simp [h1]
        · have hqp : q ≠ p := by rintro rfl; rw [hp] at h1; cases h1
          right; simpa [upd_of_ne _ _ hqp] using h1
      · injection hm with h1 h2 h3; subst h1 h2 h3; right; simp [PPc.id?]
    · intro id hm
      simp at hm; exact Nat.lt_succ_of_lt (B.retlt id hm)
    · intro id y hm
      obtain ⟨q, hq⟩ := B.called id y hm; exact ⟨q, by simp [hq]⟩
    · intro id hm; simp at hm; exact B.complete id hm
    · intro q r a y b z hb
      rw [before_append_singleton] at hb
      rcases hb with hb | ⟨hb, he⟩
      · exact B.incr q r a y b z hb
      · injection he with a1 a2 a3; subst a2; exact (B.invs _ _ _ hb).1
    · intro a b q y hb hm
      rw [before_append_singleton] at hb
      rcases hb with hb | ⟨hb, he⟩
      · exact B.realTime a b q y hb hm
      · injection he with a1 a2 a3; subst a2; exact absurd rfl (hne _ (mem_chain hm))
    · intro q a y b z hb hm
      rw [before_append_singleton] at hb
      rcases hb with hb | ⟨hb, he⟩
      · exact B.program q a y b z hb hm
      · injection he with a1 a2 a3; subst a2; exact absurd rfl (hne _ (mem_chain hm))
    · rw [popped_append]; simpa [popped] using B.pops
  · constructor
    · exact C.nodup
    · intro q
      by_cases hqp : q = p
      · subst hqp; rw [C.mem, hp]; simp [PPc.uncounted]
      · simpa [upd_of_ne _ _ hqp] using C.mem q
    · exact C.cnt
    · intro hc
      rcases C.wake hc with h1 | ⟨q, hq⟩ | h1
      · exact Or.inl h1
      · have hqp : q ≠ p := by rintro rfl; rw [hp] at hq; cases hq
        exact Or.inr (Or.inl ⟨q, by simpa [upd_of_ne _ _ hqp] using hq⟩)
      · exact Or.inr (Or.inr h1)

theorem inv_swap {h : List (Ev V)} {s : St V} {p n : Nat} (hi : Inv h s)
    (hp : s.prods p = .alloc n) :
    Inv h { s with head := n, prods := upd s.prods p (.link s.head n) } := by
  obtain ⟨order, k, pend, A, B, C⟩ := hi
  obtain ⟨hn1, hn2, hn3⟩ := A.alloc p n hp
  have hpid : (s.prods p).id? = some n := by rw [hp]; rfl
  obtain ⟨x, hx⟩ := B.allocInv p n hpid
  have hval : (s.heap n).val = some x := by
    rcases (B.invs p n x hx).2 with h1 | ⟨_, h1⟩
    · exact absurd (mem_chain h1) hn2
    · exact h1
  have hklt : k ≤ order.length := by
    have := (List.getElem?_eq_some_iff.1 A.tailk).1
    rw [chain_length] at this; omega
  have hids : ∀ q, (upd s.prods p (PPc.link s.head n) q).id? = (s.prods q).id? := by
    intro q; by_cases hqp : q = p
    · subst hqp; simp [hp, PPc.id?]
    · rw [upd_of_ne _ _ hqp]
  -- entries of the longer chain
  have hold : ∀ (i a : Nat), (chain order)[i]? = some a → (chain (order ++ [(n, x)]))[i]? = some a := by
    intro i a hia
    rw [chain_append, List.getElem?_append_left (List.getElem?_eq_some_iff.1 hia).1]; exact hia
  have hnew : ∀ (i a : Nat), (chain (order ++ [(n, x)]))[i]? = some a →
      (chain order)[i]? = some a ∨ (i = order.length + 1 ∧ a = n) := by
    intro i a hia
    rw [chain_append, List.getElem?_append] at hia
    split at hia
    · exact Or.inl hia
    · rename_i hlt
      rw [chain_length] at hia hlt
      rw [List.getElem?_singleton] at hia
      split at hia
      · simp at hia; exact Or.inr ⟨by omega, hia.symm⟩
      · cases hia
  have hlastn : (chain (order ++ [(n, x)]))[order.length + 1]? = some n := by
    rw [chain_append, List.getElem?_append_right (by rw [chain_length]; exact Nat.le_refl _), chain_length]; simp
  have hheadnext : (s.heap s.head).next = none := by
    rcases A.next _ _ A.last with h1 | ⟨b, h1, _⟩
    · exact h1
    · have := (List.getElem?_eq_some_iff.1 h1).1
      rw [chain_length] at this; omega
  refine ⟨order ++ [(n, x)], k, p :: pend, ?_, ?_, ?_⟩
  · constructor
    · intro a ha
      rw [chain_append] at ha
      simp only [List.mem_append, List.mem_singleton] at ha
      rcases ha with ha | ha
      · exact A.lt a ha
      · subst ha; exact hn1
    · rw [chain_append]
      rw [List.nodup_append]
      refine ⟨A.nodup, by simp, ?_⟩
      intro a ha b hb
      simp at hb; subst hb
      rintro rfl; exact hn2 ha
    · simpa using hlastn
    · exact hold _ _ A.tailk
    · intro i a hia
      rcases hnew i a hia with h1 | ⟨h1, h2⟩
      · rcases A.next i a h1 with h3 | ⟨b, h3, h4⟩
        · exact Or.inl h3
        · exact Or.inr ⟨b, hold _ _ h3, h4⟩
      · subst h2; exact Or.inl hn3
    · intro q a b hq
      by_cases hqp : q = p
      · subst hqp
        simp at hq
        obtain ⟨rfl, rfl⟩ := hq
        exact ⟨order.length, hold _ _ A.last, hlastn, hheadnext⟩
      · simp only [upd_of_ne _ _ hqp] at hq
        obtain ⟨i, h1, h2, h3⟩ := A.link q a b hq
        exact ⟨i, hold _ _ h1, hold _ _ h2, h3⟩
    · intro i a b h1 h2 h3
      have hi1 : i + 1 < order.length + 2 := by
        have := (List.getElem?_eq_some_iff.1 h2).1
        rw [chain_length] at this; simpa using this
      rcases hnew (i+1) b h2 with h4 | ⟨h4, h5⟩
      · rcases hnew i a h1 with h5 | ⟨h5, _⟩
        · obtain ⟨q, hq⟩ := A.missing i a b h5 h4 h3
          have hqp : q ≠ p := by rintro rfl; rw [hp] at hq; cases hq
          exact ⟨q, by simpa [upd_of_ne _ _ hqp] using hq⟩
        · omega
      · have : i = order.length := by omega
        subst this h5
        have := A.last
        rw [hold _ _ this] at h1
        injection h1 with h1
        exact ⟨p, by simp [h1]⟩
    · intro q m hq
      by_cases hqp : q = p
      · subst hqp; simp at hq
      · simp only [upd_of_ne _ _ hqp] at hq
        obtain ⟨h1, h2, h3⟩ := A.alloc q m hq
        refine ⟨h1, ?_, h3⟩
        rw [chain_append]
        simp only [List.mem_append, List.mem_singleton, not_or]
        refine ⟨h2, ?_⟩
        rintro rfl
        exact hqp (A.inj q p m (by rw [hq]; rfl) hpid)
    · intro q r m hq hr
      simp only [hids] at hq hr
      exact A.inj q r m hq hr
    · intro q m hq; simp only [hids] at hq; exact A.idlt q m hq
    · intro i e hk he
      rw [List.getElem?_append] at he
      split at he
      · exact A.vals i e hk he
      · rw [List.getElem?_singleton] at he
        split at he
        · simp at he; subst he; exact hval
        · cases he
    · intro m hm; exact hold _ _ (A.take m hm)
    · exact A.inflightSome
  · constructor
    · intro q id y hm
      obtain ⟨h1, h2⟩ := B.invs q id y hm
      refine ⟨h1, ?_⟩
      rcases h2 with h2 | ⟨h2, h3⟩
      · left; simp [h2]
      · by_cases hqp : q = p
        · subst hqp
          rw [hp] at h2; injection h2 with h2; subst h2
          rw [hval] at h3; injection h3 with h3; subst h3
          left; simp
        · right; exact ⟨by simpa [upd_of_ne _ _ hqp] using h2, h3⟩
    · intro q m hq; simp only [hids] at hq; exact B.allocInv q m hq
    · exact B.uniq
    · intro q m hq; simp only [hids] at hq; exact B.retd q m hq
    · intro q id y hm; simp only [hids]; exact B.done q id y hm
    · exact B.retlt
    · intro id y hm
      simp only [List.mem_append, List.mem_singleton, Prod.mk.injEq] at hm
      rcases hm with hm | ⟨rfl, rfl⟩
      · exact B.called id y hm
      · exact ⟨p, hx⟩
    · intro id hm
      obtain ⟨y, hy⟩ := B.complete id hm; exact ⟨y, by simp [hy]⟩
    · exact B.incr
    · intro a b q y hb hm
      simp only [List.mem_append, List.mem_singleton] at hm
      rcases hm with hm | hm
      · obtain ⟨z, hz⟩ := B.realTime a b q y hb hm
        exact ⟨z, before_append_singleton.2 (Or.inl hz)⟩
      · obtain ⟨z, hz⟩ := B.complete a hb.mem_left
        exact ⟨z, before_append_singleton.2 (Or.inr ⟨hz, hm⟩)⟩
    · intro q a y b z hb hm
      simp only [List.mem_append, List.mem_singleton] at hm
      rcases hm with hm | hm
      · exact before_append_singleton.2 (Or.inl (B.program q a y b z hb hm))
      · refine before_append_singleton.2 (Or.inr ⟨?_, hm⟩)
        injection hm with h1 h2; subst h1 h2
        have hqp : q = p := (B.uniq q p b z z hb.mem_right hx).1
        subst hqp
        rcases (B.invs q a y hb.mem_left).2 with h1 | ⟨h1, _⟩
        · exact h1
        · rw [hp] at h1; injection h1 with h1
          have := B.incr _ _ _ _ _ _ hb
          omega
    · rw [List.take_append_of_le_length hklt]; exact B.pops
  · constructor
    · rw [List.nodup_cons]
      refine ⟨?_, C.nodup⟩
      rw [C.mem, hp]; simp [PPc.uncounted]
    · intro q
      by_cases hqp : q = p
      · subst hqp; simp [PPc.uncounted]
      · simp only [List.mem_cons, hqp, false_or, upd_of_ne _ _ hqp]; exact C.mem q
    · have := C.cnt
      simp only [List.length_append, List.length_cons, List.length_nil]
      push_cast; omega
    · intro hc
      exact Or.inr (Or.inl ⟨p, by simp [PPc.waker]⟩)

theorem inv_link {h : List (Ev V)} {s : St V} {p prev n : Nat} (hi : Inv h s)
    (hp : s.prods p = .link prev n) :
    Inv h { s with heap := upd s.heap prev { s.heap prev with next := some n },
                   prods := upd s.prods p (.count n) } := by
  obtain ⟨order, k, pend, A, B, C⟩ := hi
  obtain ⟨j, hj1, hj2, hj3⟩ := A.link p prev n hp
  have hids : ∀ q, (upd s.prods p (PPc.count n) q).id? = (s.prods q).id? := by
    intro q; by_cases hqp : q = p
    · subst hqp; simp [hp, PPc.id?]
    · rw [upd_of_ne _ _ hqp]
  have hval : ∀ a, (upd s.heap prev { s.heap prev with next := some n } a).val = (s.heap a).val := by
    intro a; rw [upd_apply]; split
    · rename_i hh; subst hh; rfl
    · rfl
  have hnext : ∀ a, a ≠ prev →
      (upd s.heap prev { s.heap prev with next := some n } a).next = (s.heap a).next := by
    intro a ha; rw [upd_of_ne _ _ ha]
  refine ⟨order, k, pend, ?_, ?_, ?_⟩
  · constructor
    · exact A.lt
    · exact A.nodup
    · exact A.last
    · exact A.tailk
    · intro i a hia
      by_cases ha : a = prev
      · subst ha
        have : i = j := nodup_idx A.nodup hia hj1
        subst this
        right; exact ⟨n, hj2, by simp⟩
      · simp only [hnext a ha]; exact A.next i a hia
    · intro q a b hq
      by_cases hqp : q = p
      · subst hqp; simp at hq
      · simp only [upd_of_ne _ _ hqp] at hq
        obtain ⟨i, h1, h2, h3⟩ := A.link q a b hq
        refine ⟨i, h1, h2, ?_⟩
        have ha : a ≠ prev := by
          rintro rfl
          have : i = j := nodup_idx A.nodup h1 hj1
          subst this
          rw [hj2] at h2; injection h2 with h2; subst h2
          exact hqp (A.inj q p n (by rw [hq]; rfl) (by rw [hp]; rfl))
        simp only [hnext a ha]; exact h3
    · intro i a b h1 h2 h3
      have ha : a ≠ prev := by
        rintro rfl; simp at h3
      simp only [hnext a ha] at h3
      obtain ⟨q, hq⟩ := A.missing i a b h1 h2 h3
      have hqp : q ≠ p := by
        rintro rfl; rw [hp] at hq; injection hq with h4 h5; exact ha h4.symm
      exact ⟨q, by simpa [upd_of_ne _ _ hqp] using hq⟩
    · intro q m hq
      by_cases hqp : q = p
      · subst hqp; simp at hq
      · simp only [upd_of_ne _ _ hqp] at hq
        obtain ⟨h1, h2, h3⟩ := A.alloc q m hq
        refine ⟨h1, h2, ?_⟩
        have : m ≠ prev := by rintro rfl; exact h2 (List.mem_of_getElem? hj1)
        simp only [hnext m this]; exact h3
    · intro q r m hq hr; simp only [hids] at hq hr; exact A.inj q r m hq hr
    · intro q m hq; simp only [hids] at hq; exact A.idlt q m hq
    · intro i e hk he; simp only [hval]; exact A.vals i e hk he
    · exact A.take
    · exact A.inflightSome
  · constructor
    · intro q id y hm
      obtain ⟨h1, h2⟩ := B.invs q id y hm
      refine ⟨h1, ?_⟩
      rcases h2 with h2 | ⟨h2, h3⟩
      · exact Or.inl h2
      · have hqp : q ≠ p := by rintro rfl; rw [hp] at h2; cases h2
        right; exact ⟨by simpa [upd_of_ne _ _ hqp] using h2, by simp only [hval]; exact h3⟩
    · intro q m hq; simp only [hids] at hq; exact B.allocInv q m hq
    · exact B.uniq
    · intro q m hq; simp only [hids] at hq; exact B.retd q m hq
    · intro q id y hm; simp only [hids]; exact B.done q id y hm
    · exact B.retlt
    · exact B.called
    · exact B.complete
    · exact B.incr
    · exact B.realTime
    · exact B.program
    · exact B.pops
  · constructor
    · exact C.nodup
    · intro q
      by_cases hqp : q = p
      · subst hqp; rw [C.mem, hp]; simp [PPc.uncounted]
      · simpa [upd_of_ne _ _ hqp] using C.mem q
    · exact C.cnt
    · intro hc
      exact Or.inr (Or.inl ⟨p, by simp [PPc.waker]⟩)

/-- Steps that leave heap, chain and history alone keep the structural and history parts. -/
theorem inv_count {h : List (Ev V)} {s : St V} {p n : Nat} (hi : Inv h s)
    (hp : s.prods p = .count n) :
    Inv h { s with count := s.count + 1, prods := upd s.prods p (.send n (s.count + 1)) } := by
  obtain ⟨order, k, pend, A, B, C⟩ := hi
  have hids : ∀ q, (upd s.prods p (PPc.send n (s.count+1)) q).id? = (s.prods q).id? := by
    intro q; by_cases hqp : q = p
    · subst hqp; simp [hp, PPc.id?]
    · rw [upd_of_ne _ _ hqp]
  have hmem : p ∈ pend := by rw [C.mem, hp]; simp [PPc.uncounted]
  refine ⟨order, k, pend.erase p, ?_, ?_, ?_⟩
  · constructor
    · exact A.lt
    · exact A.nodup
    · exact A.last
    · exact A.tailk
    · exact A.next
    · intro q a b hq
      have hqp : q ≠ p := by rintro rfl; simp at hq
      simp only [upd_of_ne _ _ hqp] at hq
      exact A.link q a b hq
    · intro i a b h1 h2 h3
      obtain ⟨q, hq⟩ := A.missing i a b h1 h2 h3
      have hqp : q ≠ p := by rintro rfl; rw [hp] at hq; cases hq
      exact ⟨q, by simpa [upd_of_ne _ _ hqp] using hq⟩
    · intro q m hq
      have hqp : q ≠ p := by rintro rfl; simp at hq
      simp only [upd_of_ne _ _ hqp] at hq
      exact A.alloc q m hq
    · intro q r m hq hr; simp only [hids] at hq hr; exact A.inj q r m hq hr
    · intro q m hq; simp only [hids] at hq; exact A.idlt q m hq
    · exact A.vals
    · exact A.take
    · exact A.inflightSome
  · constructor
    · intro q id y hm
      obtain ⟨h1, h2⟩ := B.invs q id y hm
      refine ⟨h1, ?_⟩
      rcases h2 with h2 | ⟨h2, h3⟩
      · exact Or.inl h2
      · have hqp : q ≠ p := by rintro rfl; rw [hp] at h2; cases h2
        right; exact ⟨by simpa [upd_of_ne _ _ hqp] using h2, h3⟩
    · intro q m hq; simp only [hids] at hq; exact B.allocInv q m hq
    · exact B.uniq
    · intro q m hq; simp only [hids] at hq; exact B.retd q m hq
    · intro q id y hm; simp only [hids]; exact B.done q id y hm
    · exact B.retlt
    · exact B.called
    · exact B.complete
    · exact B.incr
    · exact B.realTime
    · exact B.program
    · exact B.pops
  · constructor
    · exact C.nodup.erase p
    · intro q
      by_cases hqp : q = p
      · subst hqp; simp [PPc.uncounted, C.nodup.mem_erase_iff]
      · rw [C.nodup.mem_erase_iff]; simpa [upd_of_ne _ _ hqp, hqp] using C.mem q
    · have h1 := C.cnt
      have h2 := List.length_erase_of_mem hmem
      have h3 := List.length_pos_of_mem hmem
      simp only; omega
    · intro hc
      exact Or.inr (Or.inl ⟨p, by simpa [PPc.waker] using hc⟩)

theorem inv_psend {h : List (Ev V)} {s : St V} {p n : Nat} {c : Int} (hi : Inv h s)
    (hp : s.prods p = .send n c) :
    Inv (h ++ [.pushRet n]) { s with tok := signal s.tok c, prods := upd s.prods p .idle } := by
  obtain ⟨order, k, pend, A, B, C⟩ := hi
  have hpid : (s.prods p).id? = some n := by rw [hp]; rfl
  have hids : ∀ q m, (upd s.prods p PPc.idle q).id? = some m → q ≠ p ∧ (s.prods q).id? = some m := by
    intro q m hq; by_cases hqp : q = p
    · subst hqp; simp [PPc.id?] at hq
    · rw [upd_of_ne _ _ hqp] at hq; exact ⟨hqp, hq⟩
  refine ⟨order, k, pend, ?_, ?_, ?_⟩
  · constructor
    · exact A.lt
    · exact A.nodup
    · exact A.last
    · exact A.tailk
    · exact A.next
    · intro q a b hq
      have hqp : q ≠ p := by rintro rfl; simp at hq
      simp only [upd_of_ne _ _ hqp] at hq
      exact A.link q a b hq
    · intro i a b h1 h2 h3
      obtain ⟨q, hq⟩ := A.missing i a b h1 h2 h3
      have hqp : q ≠ p := by rintro rfl; rw [hp] at hq; cases hq
      exact ⟨q, by simpa [upd_of_ne _ _ hqp] using hq⟩
    · intro q m hq
      have hqp : q ≠ p := by rintro rfl; simp at hq
      simp only [upd_of_ne _ _ hqp] at hq
      exact A.alloc q m hq
    · intro q r m hq hr; exact A.inj q r m (hids _ _ hq).2 (hids _ _ hr).2
    · intro q m hq; exact A.idlt q m (hids _ _ hq).2
    · exact A.vals
    · exact A.take
    · exact A.inflightSome
  · constructor
    · intro q id y hm
      simp at hm
      obtain ⟨h1, h2⟩ := B.invs q id y hm
      refine ⟨h1, ?_⟩
      rcases h2 with h2 | ⟨h2, h3⟩
      · exact Or.inl h2
      · have hqp : q ≠ p := by rintro rfl; rw [hp] at h2; cases h2
        right; exact ⟨by simpa [upd_of_ne _ _ hqp] using h2, h3⟩
    · intro q m hq
      obtain ⟨y, hy⟩ := B.allocInv q m (hids _ _ hq).2; exact ⟨y, by simp [hy]⟩
    · intro q r id y z h1 h2
      simp at h1 h2; exact B.uniq q r id y z h1 h2
    · intro q m hq
      obtain ⟨hqp, hq⟩ := hids _ _ hq
      simp only [List.mem_append, List.mem_singleton, Ev.pushRet.injEq, not_or]
      refine ⟨B.retd q m hq, ?_⟩
      rintro rfl; exact hqp (A.inj q p m hq hpid)
    · intro q id y hm
      simp at hm
      rcases B.done q id y hm with h1 | h1
      · left; simp [h1]
      · by_cases hqp : q = p
        · subst hqp; rw [hpid] at h1; injection h1 with h1; subst h1; left; simp
        · right; simpa [upd_of_ne _ _ hqp] using h1
    · intro id hm
      simp at hm
      rcases hm with hm | rfl
      · exact B.retlt id hm
      · exact A.idlt p id hpid
    · intro id y hm
      obtain ⟨q, hq⟩ := B.called id y hm; exact ⟨q, by simp [hq]⟩
    · intro id hm
      simp at hm
      rcases hm with hm | rfl
      · exact B.complete id hm
      · obtain ⟨y, hy⟩ := B.allocInv p id hpid
        rcases (B.invs p id y hy).2 with h1 | ⟨h1, _⟩
        · exact ⟨y, h1⟩
        · rw [hp] at h1; cases h1
    · intro q r a y b z hb
      rw [before_append_singleton] at hb
      rcases hb with hb | ⟨hb, he⟩
      · exact B.incr q r a y b z hb
      · cases he
    · intro a b q y hb hm
      rw [before_append_singleton] at hb
      rcases hb with hb | ⟨hb, he⟩
      · exact B.realTime a b q y hb hm
      · cases he
    · intro q a y b z hb hm
      rw [before_append_singleton] at hb
      rcases hb with hb | ⟨hb, he⟩
      · exact B.program q a y b z hb hm
      · cases he
    · rw [popped_append]; simpa [popped] using B.pops
  · constructor
    · exact C.nodup
    · intro q
      by_cases hqp : q = p
      · subst hqp; rw [C.mem, hp]; simp [PPc.uncounted]
      · simpa [upd_of_ne _ _ hqp] using C.mem q
    · exact C.cnt
    · intro hc
      rcases C.wake hc with h1 | ⟨q, hq⟩ | h1
      · exact Or.inl (signal_keeps h1)
      · by_cases hqp : q = p
        · subst hqp; rw [hp] at hq; exact Or.inl (signal_ne_none hq)
        · exact Or.inr (Or.inl ⟨q, by simpa [upd_of_ne _ _ hqp] using hq⟩)
      · exact Or.inr (Or.inr h1)

/-- Appending a `Pop` event keeps everything about pushes in the history part. -/
theorem invB_pop {h : List (Ev V)} {s s' : St V} {order : List (Nat × V)} {k k' : Nat} {e : Ev V}
    (B : InvB h s order k) (he : e = .popInv ∨ ∃ r, e = .popRet r)
    (hf : s'.fresh = s.fresh) (hpr : s'.prods = s.prods)
    (hv : ∀ p a, s.prods p = .alloc a → (s'.heap a).val = (s.heap a).val)
    (hpop : popped (h ++ [e]) ++ s'.cons.inflight = order.take k') :
    InvB (h ++ [e]) s' order k' := by
  have hmem : ∀ p id x, Ev.pushInv p id x ∈ h ++ [e] ↔ Ev.pushInv p id x ∈ h := by
    intro p id x; rcases he with rfl | ⟨r, rfl⟩ <;> simp
  have hmem' : ∀ id, Ev.pushRet id ∈ h ++ [e] ↔ Ev.pushRet id ∈ h := by
    intro id; rcases he with rfl | ⟨r, rfl⟩ <;> simp
  have hbef : ∀ x p b y, Before (h ++ [e]) x (Ev.pushInv p b y) ↔ Before h x (Ev.pushInv p b y) := by
    intro x p b y; rw [before_append_singleton]
    rcases he with rfl | ⟨r, rfl⟩ <;> simp
  constructor
  · intro p id x hm
    rw [hmem] at hm; rw [hf, hpr]
    obtain ⟨h1, h2⟩ := B.invs p id x hm
    refine ⟨h1, ?_⟩
    rcases h2 with h2 | ⟨h2, h3⟩
    · exact Or.inl h2
    · exact Or.inr ⟨h2, by rw [hv p id h2]; exact h3⟩
  · intro p n hn; simp only [hmem]; rw [hpr] at hn; exact B.allocInv p n hn
  · intro p q id x y; simp only [hmem]; exact B.uniq p q id x y
  · intro p n; rw [hmem', hpr]; exact B.retd p n
  · intro p id x; rw [hmem, hmem', hpr]; exact B.done p id x
  · intro id; rw [hmem', hf]; exact B.retlt id
  · intro id x; simp only [hmem]; exact B.called id x
  · intro id; rw [hmem']; exact B.complete id
  · intro p q a x b y; rw [hbef]; exact B.incr p q a x b y
  · intro a b q y; rw [hbef]; exact B.realTime a b q y
  · intro p a x b y; rw [hbef]; exact B.program p a x b y
  · exact hpop

theorem g_recv {h : List (Ev V)} {s : St V} {order : List (Nat × V)} {k : Nat} {pend : List Nat}
    (hi : G h s order k pend) (hc : s.cons = .idle) :
    G h { s with tok := none, cons := .ready } order k pend := by
  obtain ⟨A, B, C⟩ := hi
  have := B.pops; rw [hc] at this
  have hcnt := C.cnt; rw [hc] at hcnt
  exact ⟨
    { A with take := by simp, inflightSome := by simp },
    { B with pops := by simpa [CPc.inflight] using this },
    { C with cnt := by simpa [CPc.pendDec] using hcnt,
             wake := fun _ => Or.inr (Or.inr (by simp [CPc.waker])) }⟩

theorem g_pop {h : List (Ev V)} {s : St V} {order : List (Nat × V)} {k : Nat} {pend : List Nat}
    (hi : G h s order k pend)
    (hc : s.cons = .idle ∨ s.cons = .ready) :
    G (h ++ [.popInv]) { s with cons := .load } order k pend := by
  obtain ⟨A, B, C⟩ := hi
  have hfl : s.cons.inflight = [] := by rcases hc with hc | hc <;> rw [hc] <;> rfl
  have hpd : s.cons.pendDec = 0 := by rcases hc with hc | hc <;> rw [hc] <;> rfl
  have := B.pops; rw [hfl] at this
  have hcnt := C.cnt; rw [hpd] at hcnt
  exact ⟨
    { A with take := by simp, inflightSome := by simp },
    invB_pop B (Or.inl rfl) rfl rfl (fun _ _ _ => rfl) (by
      rw [popped_append]; simpa [CPc.inflight, popped] using this),
    { C with cnt := by simpa [CPc.pendDec] using hcnt,
             wake := fun _ => Or.inr (Or.inr (by simp [CPc.waker])) }⟩

theorem g_load_some {h : List (Ev V)} {s : St V} {n : Nat} {order : List (Nat × V)} {k : Nat} {pend : List Nat}
    (hi : G h s order k pend)
    (hc : s.cons = .load) (hn : (s.heap s.tail).next = some n) :
    G h { s with cons := .take n } order k pend := by
  obtain ⟨A, B, C⟩ := hi
  have := B.pops; rw [hc] at this
  have hcnt := C.cnt; rw [hc] at hcnt
  exact ⟨
    { A with
      take := by
        intro m hm
        simp at hm; subst hm
        rcases A.next k _ A.tailk with h1 | ⟨b, h1, h2⟩
        · rw [h1] at hn; cases hn
        · rw [h2] at hn; injection hn with hn; subst hn; exact h1
      inflightSome := by simp },
    { B with pops := by simpa [CPc.inflight] using this },
    { C with cnt := by simpa [CPc.pendDec] using hcnt,
             wake := fun _ => Or.inr (Or.inr (by simp [CPc.waker])) }⟩

theorem g_load_none {h : List (Ev V)} {s : St V} {order : List (Nat × V)} {k : Nat} {pend : List Nat}
    (hi : G h s order k pend)
    (hc : s.cons = .load) (hn : (s.heap s.tail).next = none) :
    G (h ++ [.popRet none]) { s with cons := .idle } order k pend := by
  obtain ⟨A, B, C⟩ := hi
  have := B.pops; rw [hc] at this
  have hcnt := C.cnt; rw [hc] at hcnt
  exact ⟨
    { A with take := by simp, inflightSome := by simp },
    invB_pop B (Or.inr ⟨_, rfl⟩) rfl rfl (fun _ _ _ => rfl) (by
      rw [popped_append]; simpa [CPc.inflight, popped] using this),
    { C with
      cnt := by simpa [CPc.pendDec] using hcnt
      wake := by
        intro hpos
        simp only [CPc.pendDec] at hcnt
        have hlt : k < order.length := by simp only at hpos; omega
        have h1 : (chain order)[k+1]? = some order[k].1 := by
          rw [chain_get_succ, List.getElem?_eq_getElem hlt]; rfl
        obtain ⟨p, hp⟩ := A.missing k _ _ A.tailk h1 hn
        exact Or.inr (Or.inl ⟨p, by simp only; rw [hp]; simp [PPc.waker]⟩) }⟩

theorem g_take {h : List (Ev V)} {s : St V} {n : Nat} {order : List (Nat × V)} {k : Nat} {pend : List Nat}
    (hi : G h s order k pend) (hc : s.cons = .take n) :
    G h { s with tail := n, heap := upd s.heap n { s.heap n with val := none },
                   cons := .dec n (s.heap n).val } order (k+1) pend := by
  obtain ⟨A, B, C⟩ := hi
  have hk := A.take n hc
  have hpops := B.pops; rw [hc] at hpops
  have hcnt := C.cnt; rw [hc] at hcnt
  rw [chain_get_succ] at hk
  have hklt : k < order.length := by
    rcases Nat.lt_or_ge k order.length with h1 | h1
    · exact h1
    · rw [List.getElem?_eq_none h1] at hk; cases hk
  have hok : order[k]? = some order[k] := List.getElem?_eq_getElem hklt
  have hkn : (order[k]).1 = n := by rw [hok] at hk; simpa using hk
  have hval := A.vals k _ (Nat.le_refl k) hok
  rw [hkn] at hval
  have hnext : ∀ a, (upd s.heap n { s.heap n with val := none } a).next = (s.heap a).next := by
    intro a; rw [upd_apply]; split
    · rename_i hh; subst hh; rfl
    · rfl
  have hnc : n ∈ chain order := hkn ▸ mem_chain (List.getElem_mem hklt)
  refine ⟨?_, ?_, ?_⟩
  · exact { A with
      tailk := by rw [chain_get_succ]; exact hk
      next := by intro i a hia; simp only [hnext]; exact A.next i a hia
      link := by intro p a b hp; simp only [hnext]; exact A.link p a b hp
      missing := by intro i a b h1 h2 h3; simp only [hnext] at h3; exact A.missing i a b h1 h2 h3
      alloc := by intro p m hp; simp only [hnext]; exact A.alloc p m hp
      vals := by
        intro i e hki he
        have hne : e.1 ≠ n := by
          intro heq
          have h1 : (chain order)[i+1]? = some n := by rw [chain_get_succ, he]; simp [heq]
          have h2 : (chain order)[k+1]? = some n := by rw [chain_get_succ]; exact hk
          have := nodup_idx A.nodup h1 h2
          omega
        simp only [upd_of_ne _ _ hne]
        exact A.vals i e (by omega) he
      take := by simp
      inflightSome := by simp [hval] }
  · exact { B with
      invs := by
        intro p id x hm
        obtain ⟨h1, h2⟩ := B.invs p id x hm
        refine ⟨h1, ?_⟩
        rcases h2 with h2 | ⟨h2, h3⟩
        · exact Or.inl h2
        · have hne : id ≠ n := by rintro rfl; exact (A.alloc p id h2).2.1 hnc
          exact Or.inr ⟨h2, by simpa [upd_of_ne _ _ hne] using h3⟩
      pops := by
        simp only [CPc.inflight, List.append_nil] at hpops
        simp only [CPc.inflight, hval, Option.map_some, Option.toList_some, hpops]
        rw [List.take_succ_eq_append_getElem hklt, ← hkn] }
  · exact { C with
      cnt := by
        simp only [CPc.pendDec] at hcnt ⊢
        push_cast; omega
      wake := fun _ => Or.inr (Or.inr (by simp [CPc.waker])) }

theorem g_dec {h : List (Ev V)} {s : St V} {n : Nat} {v : Option V} {order : List (Nat × V)} {k : Nat} {pend : List Nat}
    (hi : G h s order k pend)
    (hc : s.cons = .dec n v) :
    G h { s with count := s.count - 1, cons := .send n v (s.count - 1) } order k pend := by
  obtain ⟨A, B, C⟩ := hi
  have hpops := B.pops; rw [hc] at hpops
  have hcnt := C.cnt; rw [hc] at hcnt
  have hv := A.inflightSome.1 n v hc
  exact ⟨
    { A with
      take := by simp
      inflightSome := by
        refine ⟨by simp, ?_⟩
        intro m w c hm; simp at hm; obtain ⟨_, rfl, _⟩ := hm; exact hv },
    { B with pops := by simpa [CPc.inflight] using hpops },
    { C with
      cnt := by simp only [CPc.pendDec] at hcnt ⊢; omega
      wake := fun hpos => Or.inr (Or.inr (by simpa [CPc.waker] using hpos)) }⟩

theorem g_csend {h : List (Ev V)} {s : St V} {n : Nat} {v : Option V} {c : Int} {order : List (Nat × V)} {k : Nat} {pend : List Nat}
    (hi : G h s order k pend)
    (hc : s.cons = .send n v c) :
    G (h ++ [.popRet (v.map fun x => (n, x))]) { s with tok := signal s.tok c, cons := .idle } order k pend := by
  obtain ⟨A, B, C⟩ := hi
  have hpops := B.pops; rw [hc] at hpops
  have hcnt := C.cnt; rw [hc] at hcnt
  have hv := A.inflightSome.2 n v c hc
  obtain ⟨x, rfl⟩ := Option.ne_none_iff_exists'.1 hv
  exact ⟨
    { A with take := by simp, inflightSome := by simp },
    invB_pop B (Or.inr ⟨_, rfl⟩) rfl rfl (fun _ _ _ => rfl) (by
      rw [popped_append]; simpa [CPc.inflight, popped] using hpops),
    { C with
      cnt := by simpa [CPc.pendDec] using hcnt
      wake := by
        intro hpos
        rcases C.wake hpos with h1 | h1 | h1
        · exact Or.inl (signal_keeps h1)
        · exact Or.inr (Or.inl h1)
        · rw [hc] at h1; exact Or.inl (signal_ne_none h1) }⟩

theorem inv_step {h : List (Ev V)} {s s' : St V} {a : Act V} {evs : List (Ev V)} (hi : Inv h s)
    (hs : step s a = some (s', evs)) : Inv (h ++ evs) s' := by
  cases a with
  | push p x =>
    simp only [step] at hs
    split at hs
    · rename_i hp; injection hs with hs; injection hs with h1 h2; subst h1 h2
      exact inv_push hi hp
    · cases hs
  | prod p =>
    simp only [step, stepProd] at hs
    split at hs
    · cases hs
    all_goals (rename_i hp; injection hs with hs; injection hs with h1 h2; subst h1 h2)
    · simpa using inv_swap hi hp
    · simpa using inv_link hi hp
    · simpa using inv_count hi hp
    · exact inv_psend hi hp
  | recv =>
    simp only [step] at hs
    split at hs
    · rename_i hc _; injection hs with hs; injection hs with h1 h2; subst h1 h2
      obtain ⟨order, k, pend, hg⟩ := hi
      have := g_recv hg hc
      exact ⟨order, _, pend, by simpa using this⟩
    · cases hs
  | pop =>
    simp only [step] at hs
    split at hs
    · rename_i hc; injection hs with hs; injection hs with h1 h2; subst h1 h2
      obtain ⟨order, k, pend, hg⟩ := hi
      have := g_pop hg (Or.inl hc)
      exact ⟨order, _, pend, by simpa using this⟩
    · rename_i hc; injection hs with hs; injection hs with h1 h2; subst h1 h2
      obtain ⟨order, k, pend, hg⟩ := hi
      have := g_pop hg (Or.inr hc)
      exact ⟨order, _, pend, by simpa using this⟩
    · cases hs
  | cons =>
    simp only [step, stepCons] at hs
    split at hs
    · cases hs
    · cases hs
    · rename_i hc
      split at hs
      · rename_i hn; injection hs with hs; injection hs with h1 h2; subst h1 h2
        obtain ⟨order, k, pend, hg⟩ := hi
        have := g_load_some hg hc hn
        exact ⟨order, _, pend, by simpa using this⟩
      · rename_i hn; injection hs with hs; injection hs with h1 h2; subst h1 h2
        obtain ⟨order, k, pend, hg⟩ := hi
        have := g_load_none hg hc hn
        exact ⟨order, _, pend, by simpa using this⟩
    all_goals (rename_i hc; injection hs with hs; injection hs with h1 h2; subst h1 h2)
    · obtain ⟨order, k, pend, hg⟩ := hi
      have := g_take hg hc
      exact ⟨order, _, pend, by simpa using this⟩
    · obtain ⟨order, k, pend, hg⟩ := hi
      have := g_dec hg hc
      exact ⟨order, _, pend, by simpa using this⟩
    · obtain ⟨order, k, pend, hg⟩ := hi
      have := g_csend hg hc
      exact ⟨order, _, pend, by simpa using this⟩

theorem run_inv {h : List (Ev V)} {s : St V} (hr : (sys V).Run h s) : Inv h s :=
  Lts.Run.invariant (P := Inv) inv_init (fun _ _ _ _ _ _ hi hs => inv_step hi hs) hr

end Braid.Mpsc
