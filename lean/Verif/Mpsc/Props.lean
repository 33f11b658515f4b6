import Verif.Mpsc.Loop

/-
Properties C01-C04: the mailbox queue of lib/mpsc.
-/
namespace Braid.Mpsc
variable {V : Type}

/-- **C01** In every execution, with any number of producers, the history of `Push` and `Pop` calls
is that of a FIFO queue: see `Explains` (single order; each push once; every returned push in it;
real-time order; program order; popped values are a prefix). -/
theorem C01_fifo {h : List (Ev V)} {s : St V} (hr : (sys V).Run h s) :
    ∃ order, Explains order h := by
  obtain ⟨order, k, pend, A, B, C⟩ := run_inv hr
  refine ⟨order, ?_, B.called, B.complete, B.realTime, B.program, ?_⟩
  · have := A.nodup; rw [chain, List.nodup_cons] at this; exact this.2
  · have h1 : popped h <+: order.take k := ⟨_, B.pops⟩
    exact h1.trans (List.take_prefix _ _)

/-- **C01** Consequence: no push is popped twice, and every popped value was pushed. -/
theorem C01_exactly_once {h : List (Ev V)} {s : St V} (hr : (sys V).Run h s) :
    ((popped h).map Prod.fst).Nodup ∧
      ∀ id x, (id, x) ∈ popped h → ∃ p, Ev.pushInv p id x ∈ h := by
  obtain ⟨order, E⟩ := C01_fifo hr
  refine ⟨(E.fifo.map Prod.fst).sublist.nodup E.once, ?_⟩
  intro id x hm
  exact E.called id x (E.fifo.subset hm)

/-- **C02** When no `Push` is in progress and the consumer is outside of `Pop`: the values still to
be popped (`rem`) are exactly the pushed values not yet popped, in order; `Count` is their number;
`Empty` says whether there are none; popping `rem.length` times returns them all, and then nil. -/
theorem C02_no_loss {h : List (Ev V)} {s : St V} (hr : (sys V).Run h s) (hd : PushesDone h)
    (hc : s.cons = .idle) :
    ∃ order rem, Explains order h ∧ (∀ p id x, Ev.pushInv p id x ∈ h → (id, x) ∈ order) ∧
      popped h ++ rem = order ∧
      countNow s = rem.length ∧
      (empty s = true ↔ rem = []) ∧
      ∃ s', (sys V).exec s (popActs V rem.length ++ [.pop, .cons]) =
        some (s', popEvs rem ++ [.popInv, .popRet none]) := by
  obtain ⟨order, k, pend, hg⟩ := run_inv hr
  have hq := quiet hg.2.1 hd
  have hpn := pend_nil hg.2.2 hq
  have hpops := hg.2.1.pops
  rw [hc] at hpops
  simp only [CPc.inflight, List.append_nil] at hpops
  have hk : k ≤ order.length := by
    have h2 := (List.getElem?_eq_some_iff.1 hg.1.tailk).1
    rw [chain_length] at h2; omega
  refine ⟨order, order.drop k, ⟨?_, hg.2.1.called, hg.2.1.complete, hg.2.1.realTime,
    hg.2.1.program, ?_⟩, ?_, ?_, ?_, ?_, ?_⟩
  · have := hg.1.nodup; rw [chain, List.nodup_cons] at this; exact this.2
  · rw [hpops]; exact List.take_prefix _ _
  · intro p id x hm
    rcases (hg.2.1.invs p id x hm).2 with h1 | ⟨h1, _⟩
    · exact h1
    · rw [hq p] at h1; cases h1
  · rw [hpops]; exact List.take_append_drop k order
  · have hcnt := hg.2.2.cnt
    rw [hc, hpn] at hcnt
    simp only [CPc.pendDec, List.length_nil] at hcnt
    simp only [countNow, List.length_drop]
    omega
  · cases he : order[k]? with
    | none =>
      have h1 := tail_next_none hg.1 he
      have h2 : order.length ≤ k := List.getElem?_eq_none_iff.1 he
      simp [empty, h1, List.drop_eq_nil_iff, h2]
    | some e =>
      have h1 := tail_next hg.1 hq he
      have h2 := (List.getElem?_eq_some_iff.1 he).1
      simp [empty, h1, List.drop_eq_nil_iff, h2]
  · obtain ⟨s1, h1, g1, q1, c1⟩ := drain hg hq hc
    obtain ⟨s2, h2⟩ := round_none g1 (Or.inl c1) (List.getElem?_eq_none (Nat.le_refl _))
    exact ⟨s2, Lts.exec_append h1 h2⟩

/-- **C03** No lost wake-up: if every `Push` has returned, the consumer is waiting on `C`, and some
pushed value has not been popped, then a token is ready in `C`. -/
theorem C03_no_lost_wakeup {h : List (Ev V)} {s : St V} (hr : (sys V).Run h s)
    (hd : PushesDone h) (hc : s.cons = .idle)
    (hne : ∃ p id x, Ev.pushInv p id x ∈ h ∧ (id, x) ∉ popped h) : ∃ t, s.tok = some t := by
  obtain ⟨order, k, pend, hg⟩ := run_inv hr
  have hq := quiet hg.2.1 hd
  have hpops := hg.2.1.pops
  rw [hc] at hpops
  simp only [CPc.inflight, List.append_nil] at hpops
  obtain ⟨p, id, x, hm, hnp⟩ := hne
  refine tok_ready hg hq hc ?_
  rcases Nat.lt_or_ge k order.length with h1 | h1
  · exact h1
  · exfalso
    rw [List.take_of_length_le h1] at hpops
    rcases (hg.2.1.invs p id x hm).2 with h2 | ⟨h2, _⟩
    · rw [← hpops] at h2; exact hnp h2
    · rw [hq p] at h2; cases h2

/-- **C03** The consumer loop "receive from `C`, then `Pop`" drains the queue: from any state in
which all pushes have returned and the consumer waits, it runs one round per remaining value,
without ever blocking on `C`, and returns exactly the remaining values in order. -/
theorem C03_loop_drains {h : List (Ev V)} {s : St V} (hr : (sys V).Run h s) (hd : PushesDone h)
    (hc : s.cons = .idle) :
    ∃ order rem s', Explains order h ∧ (∀ p id x, Ev.pushInv p id x ∈ h → (id, x) ∈ order) ∧
      popped h ++ rem = order ∧
      (sys V).exec s (loopActs V rem.length) = some (s', popEvs rem) := by
  obtain ⟨order, k, pend, hg⟩ := run_inv hr
  have hq := quiet hg.2.1 hd
  have hpops := hg.2.1.pops
  rw [hc] at hpops
  simp only [CPc.inflight, List.append_nil] at hpops
  obtain ⟨s1, h1, g1, q1, c1⟩ := loop_drain hg hq hc
  refine ⟨order, order.drop k, s1, ⟨?_, hg.2.1.called, hg.2.1.complete, hg.2.1.realTime,
    hg.2.1.program, ?_⟩, ?_, ?_, h1⟩
  · have := hg.1.nodup; rw [chain, List.nodup_cons] at this; exact this.2
  · rw [hpops]; exact List.take_prefix _ _
  · intro p id x hm
    rcases (hg.2.1.invs p id x hm).2 with h1 | ⟨h1, _⟩
    · exact h1
    · rw [hq p] at h1; cases h1
  · rw [hpops]; exact List.take_append_drop k order

/-- **C03** Every schedule of any number of producers and the consumer loop comes to rest: it has at most 14 steps for
each call of `Push`, whatever the interleaving. -/
theorem C03_comes_to_rest {as : List (Act V)} {h : List (Ev V)} {s : St V}
    (he : (loopSys V).exec (init V) as = some (s, h)) : as.length ≤ 14 * pushCalls as := by
  have h1 := loop_bounded he
  have h2 : ∀ l : List (Act V), l.countP Act.isPush = pushCalls l := by
    intro l
    induction l with
    | nil => rfl
    | cons a l ih => cases a <;> simp [pushCalls, Act.isPush, List.countP_cons, ih]
  rwa [h2] at h1

/-- **C03** And when it has come to rest (no producer and not the consumer can go on) every pushed value was popped. -/
theorem C03_rest_drained {h : List (Ev V)} {s : St V} (hr : (loopSys V).Run h s)
    (hrest : ∀ a, (∀ p x, a ≠ .push p x) → (loopSys V).step s a = none) {p id : Nat} {x : V}
    (hm : Ev.pushInv p id x ∈ h) : (id, x) ∈ popped h := by
  have hr' := loop_run hr
  have hq : ∀ p, s.prods p = .idle := by
    intro p
    have := hrest (.prod p) (by simp)
    simp only [loopSys, step, stepProd] at this
    split at this <;> first | assumption | cases this
  have hd : PushesDone h := by
    intro p id x hm
    obtain ⟨order, k, pend, A, B, C⟩ := run_inv hr'
    rcases B.done p id x hm with h1 | h1
    · exact h1
    · rw [hq p] at h1; cases h1
  have hc : s.cons = .idle := by
    have h1 := hrest .cons (by simp)
    have h2 := hrest .pop (by simp)
    simp only [loopSys, step, stepCons] at h1 h2
    cases hc : s.cons with
    | idle => rfl
    | ready => rw [hc] at h2; cases h2
    | load => rw [hc] at h1; simp only at h1; split at h1 <;> cases h1
    | take n => rw [hc] at h1; cases h1
    | dec n v => rw [hc] at h1; cases h1
    | send n v c => rw [hc] at h1; cases h1
  apply Classical.byContradiction
  intro hn
  obtain ⟨t, ht⟩ := C03_no_lost_wakeup hr' hd hc ⟨p, id, x, hm, hn⟩
  have := hrest .recv (by simp)
  simp [loopSys, step, hc, ht] at this

/-- **C04**, the full statement: when `Pop` returns nil, every `Push` that had returned before this
`Pop` started has been popped. (`h2`: what happened during this `Pop`; no other `Pop` events.) -/
def NilMeansDrained (V : Type) : Prop :=
  ∀ (h1 h2 : List (Ev V)) (s : St V),
    (sys V).Run (h1 ++ [.popInv] ++ h2 ++ [.popRet none]) s →
    (∀ e ∈ h2, e ≠ .popInv ∧ ∀ r, e ≠ .popRet r) →
    ∀ id, Ev.pushRet id ∈ h1 → ∃ x, (id, x) ∈ popped h1

/-- **C04** is violated: producer 0 has swapped but not linked; producer 1 pushes completely; `Pop`
returns nil although the `Push` of producer 1 returned before. -/
theorem C04_nil_means_drained_refuted : ¬ NilMeansDrained Nat := by
  intro hall
  have hrun : ∃ s, (sys Nat).Run
      ([.pushInv 0 1 10, .pushInv 1 2 20, .pushRet 2] ++ [.popInv] ++ [] ++ [.popRet none]) s :=
    ⟨_, Lts.run_of_exec (as := [.push 0 10, .prod 0, .push 1 20, .prod 1, .prod 1, .prod 1, .prod 1,
      .pop, .cons]) rfl⟩
  obtain ⟨s, hs⟩ := hrun
  obtain ⟨x, hx⟩ := hall _ _ _ hs (by simp) 2 (by simp)
  simp [popped] at hx

/-- **C04** (partial): at the moment `Pop` returns nil, every `Push` that has returned either has
been popped or is queued behind a `Push` that is still in progress. What is missing from the full
statement: the second alternative. -/
theorem C04_nil_means_drained_partial {h : List (Ev V)} {s s' : St V} {a : Act V} {evs : List (Ev V)}
    (hr : (sys V).Run h s) (hs : (sys V).step s a = some (s', evs)) (hnil : Ev.popRet none ∈ evs) :
    ∃ order, Explains order h ∧ ∀ id, Ev.pushRet id ∈ h →
      (∃ x, (id, x) ∈ popped h) ∨
      (∃ q b y x, Ev.pushInv q b y ∈ h ∧ Ev.pushRet b ∉ h ∧ Before order (b, y) (id, x)) := by
  obtain ⟨order, k, pend, A, B, C⟩ := run_inv hr
  -- the only step that returns nil is a load of a nil pointer
  have hload : s.cons = .load ∧ (s.heap s.tail).next = none := by
    cases a with
    | push p x =>
      simp only [sys, step] at hs
      split at hs
      · injection hs with hs; injection hs with _ h2; subst h2; simp at hnil
      · cases hs
    | prod p =>
      simp only [sys, step, stepProd] at hs
      split at hs
      · cases hs
      all_goals (injection hs with hs; injection hs with _ h2; subst h2; simp at hnil)
    | recv =>
      simp only [sys, step] at hs
      split at hs
      · injection hs with hs; injection hs with _ h2; subst h2; simp at hnil
      · cases hs
    | pop =>
      simp only [sys, step] at hs
      split at hs
      · injection hs with hs; injection hs with _ h2; subst h2; simp at hnil
      · injection hs with hs; injection hs with _ h2; subst h2; simp at hnil
      · cases hs
    | cons =>
      simp only [sys, step, stepCons] at hs
      split at hs
      · cases hs
      · cases hs
      · rename_i hc
        split at hs
        · injection hs with hs; injection hs with _ h2; subst h2; simp at hnil
        · rename_i hn; exact ⟨hc, hn⟩
      · injection hs with hs; injection hs with _ h2; subst h2; simp at hnil
      · injection hs with hs; injection hs with _ h2; subst h2; simp at hnil
      · rename_i n v c hc
        injection hs with hs; injection hs with _ h2; subst h2
        have := A.inflightSome.2 n v c hc
        cases v <;> simp_all
  obtain ⟨hc, hn⟩ := hload
  have hpops := B.pops
  rw [hc] at hpops
  simp only [CPc.inflight, List.append_nil] at hpops
  refine ⟨order, ⟨?_, B.called, B.complete, B.realTime, B.program, ?_⟩, ?_⟩
  · have := A.nodup; rw [chain, List.nodup_cons] at this; exact this.2
  · rw [hpops]; exact List.take_prefix _ _
  · intro id hid
    obtain ⟨x, hx⟩ := B.complete id hid
    rw [← List.take_append_drop k order] at hx
    rcases List.mem_append.1 hx with h1 | h1
    · left; exact ⟨x, by rw [hpops]; exact h1⟩
    · right
      cases hd : order.drop k with
      | nil => rw [hd] at h1; cases h1
      | cons e r =>
        have he : order[k]? = some e := by
          have : (order.drop k)[0]? = some e := by rw [hd]; rfl
          simpa using this
        have h2 : (chain order)[k+1]? = some e.1 := by rw [chain_get_succ, he]; rfl
        obtain ⟨q, hq⟩ := A.missing k _ _ A.tailk h2 hn
        have hqid : (s.prods q).id? = some e.1 := by rw [hq]; rfl
        have hnr := B.retd q _ hqid
        obtain ⟨y, hy⟩ := B.allocInv q _ hqid
        obtain ⟨q', hq'⟩ := B.called e.1 e.2 (List.mem_of_getElem? he)
        obtain ⟨rfl, rfl⟩ := B.uniq q q' e.1 y e.2 hy hq'
        refine ⟨q, e.1, e.2, x, hq', hnr, ?_⟩
        rw [hd] at h1
        rcases List.mem_cons.1 h1 with h3 | h3
        · subst h3; exact absurd hid hnr
        · have h4 : List.Sublist [(e.1, e.2), (id, x)] (order.drop k) := by
            rw [hd]
            exact List.Sublist.cons_cons _ (List.singleton_sublist.2 h3)
          exact h4.trans (List.drop_sublist _ _)

/-! Concrete instances of the hypotheses. -/

/-- Two producers whose pushes overlap and a consumer that popped one of the two values: the
hypotheses of C01, C02, C03 hold together (one value is still queued). -/
example : ∃ h s, (sys Nat).Run h s ∧ PushesDone h ∧ s.cons = .idle ∧
    popped h = [(1, 10)] ∧ ∃ p id x, Ev.pushInv p id x ∈ h ∧ (id, x) ∉ popped h := by
  refine ⟨[.pushInv 0 1 10, .pushInv 1 2 20, .pushRet 2, .pushRet 1, .popInv, .popRet (some (1, 10))],
    _, Lts.run_of_exec (M := sys Nat) (as := [.push 0 10, .prod 0, .push 1 20, .prod 1, .prod 1, .prod 1, .prod 1, .prod 0, .prod 0, .prod 0, .recv, .pop, .cons, .cons, .cons, .cons])
    rfl, ?_, rfl, rfl, 1, 2, 20, ?_, ?_⟩
  · intro p id x hm
    simp [Ev.pushInv.injEq] at hm
    rcases hm with ⟨_, rfl, _⟩ | ⟨_, rfl, _⟩ <;> simp
  · simp
  · simp [popped]

/-- A schedule of the consumer loop that has come to rest: two overlapping pushes and two rounds. -/
example : ∃ as h s, (loopSys Nat).exec (init Nat) as = some (s, h) ∧ pushCalls as = 2 ∧
    popped h = [(1, 10), (2, 20)] ∧ s.cons = .idle ∧ s.tok = none := by
  refine ⟨[.push 0 10, .prod 0, .push 1 20, .prod 1, .prod 1, .prod 1, .prod 1, .prod 0, .prod 0, .prod 0, .recv, .pop,
    .cons, .cons, .cons, .cons, .recv, .pop, .cons, .cons, .cons, .cons], _, _, rfl, rfl, rfl, rfl, rfl⟩

/-- The hypotheses of C04 (partial): a `Pop` that returns nil while a push is in progress. -/
example : ∃ h s s' evs, (sys Nat).Run h s ∧ (sys Nat).step s .cons = some (s', evs) ∧
    Ev.popRet none ∈ evs ∧ Ev.pushRet 2 ∈ h :=
  ⟨[.pushInv 0 1 10, .pushInv 1 2 20, .pushRet 2, .popInv], _, _, _,
    Lts.run_of_exec (M := sys Nat) (as := [.push 0 10, .prod 0, .push 1 20, .prod 1,
    .prod 1, .prod 1, .prod 1, .pop]) rfl, rfl, by simp, by simp⟩

end Braid.Mpsc
