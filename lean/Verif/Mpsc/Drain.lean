import Verif.Mpsc.Steps

/- Consumer-only executions from states in which no Push is in progress (helper lemmas). -/
namespace Braid.Mpsc
variable {V : Type}

theorem quiet {h : List (Ev V)} {s : St V} {order : List (Nat × V)} {k : Nat}
    (B : InvB h s order k) (hd : PushesDone h) : ∀ p, s.prods p = .idle := by
  intro p
  cases hp : s.prods p with
  | idle => rfl
  | _ =>
    have hid : ∃ n, (s.prods p).id? = some n := by rw [hp]; exact ⟨_, rfl⟩
    obtain ⟨n, hn⟩ := hid
    obtain ⟨x, hx⟩ := B.allocInv p n hn
    exact absurd (hd p n x hx) (B.retd p n hn)

theorem pend_nil {s : St V} {order : List (Nat × V)} {k : Nat} {pend : List Nat}
    (C : InvC s order k pend) (hq : ∀ p, s.prods p = .idle) : pend = [] := by
  cases pend with
  | nil => rfl
  | cons p t =>
    have := (C.mem p).1 (by simp)
    rw [hq p] at this; cases this

theorem tail_next {s : St V} {order : List (Nat × V)} {k : Nat} {e : Nat × V}
    (A : InvA s order k) (hq : ∀ p, s.prods p = .idle) (he : order[k]? = some e) :
    (s.heap s.tail).next = some e.1 := by
  have h1 : (chain order)[k+1]? = some e.1 := by rw [chain_get_succ, he]; rfl
  rcases A.next k _ A.tailk with h2 | ⟨b, h2, h3⟩
  · obtain ⟨p, hp⟩ := A.missing k _ _ A.tailk h1 h2
    rw [hq p] at hp; cases hp
  · rw [h1] at h2; injection h2 with h2; subst h2; exact h3

theorem tail_next_none {s : St V} {order : List (Nat × V)} {k : Nat}
    (A : InvA s order k) (he : order[k]? = none) : (s.heap s.tail).next = none := by
  rcases A.next k _ A.tailk with h2 | ⟨b, h2, h3⟩
  · exact h2
  · rw [chain_get_succ, he] at h2; cases h2

theorem st_pop {h : List (Ev V)} {s : St V} {order : List (Nat × V)} {k : Nat}
    {pend : List Nat} (hg : G h s order k pend) (hc : s.cons = .idle ∨ s.cons = .ready) :
    ∃ s1, (sys V).step s .pop = some (s1, [.popInv]) ∧ G (h ++ [.popInv]) s1 order k pend ∧
      s1.cons = .load ∧ s1.prods = s.prods := by
  refine ⟨_, ?_, g_pop hg hc, rfl, rfl⟩
  rcases hc with hc | hc <;> simp [sys, step, hc]

theorem st_load {h : List (Ev V)} {s : St V} {order : List (Nat × V)} {k n : Nat}
    {pend : List Nat} (hg : G h s order k pend) (hc : s.cons = .load)
    (hn : (s.heap s.tail).next = some n) :
    ∃ s1, (sys V).step s .cons = some (s1, []) ∧ G h s1 order k pend ∧
      s1.cons = .take n ∧ s1.prods = s.prods := by
  refine ⟨_, ?_, g_load_some hg hc hn, rfl, rfl⟩
  simp [sys, step, stepCons, hc, hn]

theorem st_take {h : List (Ev V)} {s : St V} {order : List (Nat × V)} {k : Nat}
    {pend : List Nat} {e : Nat × V} (hg : G h s order k pend) (hc : s.cons = .take e.1)
    (he : order[k]? = some e) :
    ∃ s1, (sys V).step s .cons = some (s1, []) ∧ G h s1 order (k+1) pend ∧
      s1.cons = .dec e.1 (some e.2) ∧ s1.prods = s.prods := by
  refine ⟨_, ?_, g_take hg hc, ?_, rfl⟩
  · simp [sys, step, stepCons, hc]
  · simp [hg.1.vals k e (Nat.le_refl k) he]

theorem st_dec {h : List (Ev V)} {s : St V} {order : List (Nat × V)} {k n : Nat}
    {pend : List Nat} {v : Option V} (hg : G h s order k pend) (hc : s.cons = .dec n v) :
    ∃ s1 c, (sys V).step s .cons = some (s1, []) ∧ G h s1 order k pend ∧
      s1.cons = .send n v c ∧ s1.prods = s.prods := by
  refine ⟨_, _, ?_, g_dec hg hc, rfl, rfl⟩
  simp [sys, step, stepCons, hc]

theorem st_send {h : List (Ev V)} {s : St V} {order : List (Nat × V)} {k n : Nat} {c : Int}
    {pend : List Nat} {v : Option V} (hg : G h s order k pend) (hc : s.cons = .send n v c) :
    ∃ s1, (sys V).step s .cons = some (s1, [.popRet (v.map fun x => (n, x))]) ∧
      G (h ++ [.popRet (v.map fun x => (n, x))]) s1 order k pend ∧
      s1.cons = .idle ∧ s1.prods = s.prods := by
  refine ⟨_, ?_, g_csend hg hc, rfl, rfl⟩
  simp [sys, step, stepCons, hc]

/-- One `Pop` on a non-empty queue. -/
theorem round_some {h : List (Ev V)} {s : St V} {order : List (Nat × V)} {k : Nat}
    {pend : List Nat} {e : Nat × V} (hg : G h s order k pend) (hq : ∀ p, s.prods p = .idle)
    (hc : s.cons = .idle ∨ s.cons = .ready) (he : order[k]? = some e) :
    ∃ s', (sys V).exec s [.pop, .cons, .cons, .cons, .cons] =
        some (s', [.popInv, .popRet (some e)]) ∧
      G (h ++ [.popInv, .popRet (some e)]) s' order (k+1) pend ∧
      (∀ p, s'.prods p = .idle) ∧ s'.cons = .idle := by
  obtain ⟨s1, e1, g1, c1, q1⟩ := st_pop hg hc
  have hn := tail_next g1.1 (by rw [q1]; exact hq) he
  obtain ⟨s2, e2, g2, c2, q2⟩ := st_load g1 c1 hn
  obtain ⟨s3, e3, g3, c3, q3⟩ := st_take g2 c2 he
  obtain ⟨s4, c, e4, g4, c4, q4⟩ := st_dec g3 c3
  obtain ⟨s5, e5, g5, c5, q5⟩ := st_send g4 c4
  refine ⟨s5, ?_, ?_, ?_, c5⟩
  · simp [Lts.exec, e1, e2, e3, e4, e5]
  · simpa using g5
  · rw [q5, q4, q3, q2, q1]; exact hq

/-- One `Pop` on an empty queue. -/
theorem round_none {h : List (Ev V)} {s : St V} {order : List (Nat × V)} {k : Nat}
    {pend : List Nat} (hg : G h s order k pend)
    (hc : s.cons = .idle ∨ s.cons = .ready) (he : order[k]? = none) :
    ∃ s', (sys V).exec s [.pop, .cons] = some (s', [.popInv, .popRet none]) := by
  have hn := tail_next_none hg.1 he
  rcases hc with hc | hc <;>
    simp [Lts.exec, sys, step, stepCons, hc, hn]

/-- `n` times the actions of one `Pop`. -/
def popActs (V : Type) : Nat → List (Act V)
  | 0 => []
  | n+1 => [.pop, .cons, .cons, .cons, .cons] ++ popActs V n

/-- `n` rounds of the loop "receive from `C`, then `Pop`". -/
def loopActs (V : Type) : Nat → List (Act V)
  | 0 => []
  | n+1 => .recv :: [.pop, .cons, .cons, .cons, .cons] ++ loopActs V n

def popEvs : List (Nat × V) → List (Ev V)
  | [] => []
  | e :: r => [.popInv, .popRet (some e)] ++ popEvs r

theorem drain {h : List (Ev V)} {s : St V} {order : List (Nat × V)} {k : Nat}
    {pend : List Nat} (hg : G h s order k pend) (hq : ∀ p, s.prods p = .idle)
    (hc : s.cons = .idle) :
    ∃ s', (sys V).exec s (popActs V (order.drop k).length) = some (s', popEvs (order.drop k)) ∧
      G (h ++ popEvs (order.drop k)) s' order order.length pend ∧
      (∀ p, s'.prods p = .idle) ∧ s'.cons = .idle := by
  generalize hr : order.drop k = r
  induction r generalizing h s k with
  | nil =>
    have hk : k = order.length := by
      have h1 : order.length ≤ k := List.drop_eq_nil_iff.1 hr
      have h2 := (List.getElem?_eq_some_iff.1 hg.1.tailk).1
      rw [chain_length] at h2; omega
    subst hk
    exact ⟨s, rfl, by simpa [popEvs] using hg, hq, hc⟩
  | cons e r ih =>
    have he : order[k]? = some e := by
      have : (order.drop k)[0]? = some e := by rw [hr]; rfl
      simpa using this
    obtain ⟨s1, h1, g1, q1, c1⟩ := round_some hg hq (Or.inl hc) he
    have hr' : order.drop (k+1) = r := by
      rw [← List.drop_drop, hr]; rfl
    obtain ⟨s2, h2, g2, q2, c2⟩ := ih g1 q1 c1 hr'
    refine ⟨s2, ?_, ?_, q2, c2⟩
    · exact Lts.exec_append h1 h2
    · simpa [popEvs] using g2

theorem tok_ready {h : List (Ev V)} {s : St V} {order : List (Nat × V)} {k : Nat}
    {pend : List Nat} (hg : G h s order k pend) (hq : ∀ p, s.prods p = .idle)
    (hc : s.cons = .idle) (hk : k < order.length) : ∃ t, s.tok = some t := by
  obtain ⟨A, B, C⟩ := hg
  have hpn := pend_nil C hq
  subst hpn
  have hcnt := C.cnt
  rw [hc] at hcnt
  simp only [CPc.pendDec, List.length_nil] at hcnt
  have hpos : s.count > 0 := by omega
  rcases C.wake hpos with h1 | ⟨p, hp⟩ | h1
  · exact Option.ne_none_iff_exists'.1 h1
  · rw [hq p] at hp; cases hp
  · rw [hc] at h1; cases h1

theorem loop_drain {h : List (Ev V)} {s : St V} {order : List (Nat × V)} {k : Nat}
    {pend : List Nat} (hg : G h s order k pend) (hq : ∀ p, s.prods p = .idle)
    (hc : s.cons = .idle) :
    ∃ s', (sys V).exec s (loopActs V (order.drop k).length) = some (s', popEvs (order.drop k)) ∧
      G (h ++ popEvs (order.drop k)) s' order order.length pend ∧
      (∀ p, s'.prods p = .idle) ∧ s'.cons = .idle := by
  generalize hr : order.drop k = r
  induction r generalizing h s k with
  | nil =>
    have hk : k = order.length := by
      have h1 : order.length ≤ k := List.drop_eq_nil_iff.1 hr
      have h2 := (List.getElem?_eq_some_iff.1 hg.1.tailk).1
      rw [chain_length] at h2; omega
    subst hk
    exact ⟨s, rfl, by simpa [popEvs] using hg, hq, hc⟩
  | cons e r ih =>
    have he : order[k]? = some e := by
      have : (order.drop k)[0]? = some e := by rw [hr]; rfl
      simpa using this
    have hklt := (List.getElem?_eq_some_iff.1 he).1
    obtain ⟨t, ht⟩ := tok_ready hg hq hc hklt
    have g0 := g_recv hg hc
    obtain ⟨s1, h1, g1, q1, c1⟩ := round_some g0 hq (Or.inr rfl) he
    have hr' : order.drop (k+1) = r := by
      rw [← List.drop_drop, hr]; rfl
    obtain ⟨s2, h2, g2, q2, c2⟩ := ih g1 q1 c1 hr'
    refine ⟨s2, ?_, ?_, q2, c2⟩
    · have hrecv : (sys V).step s .recv = some ({ s with tok := none, cons := .ready }, []) := by
        simp [sys, step, hc, ht]
      have := Lts.exec_cons hrecv (Lts.exec_append h1 h2)
      simpa [loopActs, popEvs] using this
    · simpa [popEvs] using g2

end Braid.Mpsc
