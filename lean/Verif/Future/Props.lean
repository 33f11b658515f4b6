import Verif.Future.Rest

/-
Properties C07-C08: futures (core/actor/actor_reenter_impl.go).
-/
namespace Braid.Future
variable {V : Type}

/-- **C07** Every started callback was given to a `Then` call on some future, its argument is the
value of the first `Complete` call on that future, and that call came before the start. -/
theorem C07_started_with_first_value {h : List (Ev V)} {s : St V} (hr : (sys V).Run h s)
    {r : Nat} {v : V} (hs : Ev.start r v ∈ h) :
    ∃ f t, Ev.then_ r f ∈ h ∧ firstVal h f = some v ∧ Before h (Ev.complete t f v) (Ev.start r v) := by
  have I := run_inv hr
  obtain ⟨tk, h1, rfl, rfl⟩ := I.T.d3 r v hs
  obtain ⟨f, hf⟩ := I.C.c7e tk h1
  obtain ⟨t, ht⟩ := I.T.d8 _ _ hs f hf
  exact ⟨f, t, hf, I.B.v1 f _ (I.C.c7 tk h1 f hf).1, ht⟩

/-- **C07** No callback is started twice. -/
theorem C07_at_most_once {h : List (Ev V)} {s : St V} (hr : (sys V).Run h s) : (starts h).Nodup :=
  (run_inv hr).T.d4

/-- **C07** Nobody is forgotten: once all goroutines have come to rest, every callback given to a
`Then` call on a completed future has been started, with the first completion's value, whether
`Then` came before or after `Complete`. -/
theorem C07_all_started {h : List (Ev V)} {s : St V} (hr : (sys V).Run h s) (hq : Quiet s)
    {r f : Nat} {v : V} (ht : Ev.then_ r f ∈ h) (hv : firstVal h f = some v) :
    Ev.start r v ∈ h := by
  have I := run_inv hr
  obtain ⟨k, tk, hk, rfl, rfl⟩ := quiet_task I hq ht hv
  exact I.T.d1 k tk hk (by rw [hq]; rfl)

/-- **C07** A goroutine never gets stuck: whatever it is doing, it can go on unless it waits for a
mutex that another goroutine holds, and that one can go on. -/
theorem C07_no_stuck {h : List (Ev V)} {s : St V} (hr : (sys V).Run h s) (t : Tid)
    (hp : s.pc t ≠ .idle) :
    (∃ s' evs, (sys V).step s (.next t) = some (s', evs)) ∨
      ∃ c t', t' ≠ t ∧ (s.fut c).lock = some t' ∧ ∃ s' evs, (sys V).step s (.next t') = some (s', evs) := by
  rcases can_go hr t hp with h1 | ⟨-, c, t', h1, h2, h3⟩
  · exact .inl h1
  · refine .inr ⟨c, t', h1, h2, ?_⟩
    have hi := ((run_inv hr).A.lk t' c).2 h2
    rcases can_go hr t' (by intro h; rw [h] at hi; cases hi) with h4 | ⟨h4, -⟩
    · exact h4
    · rw [h3] at h4; cases h4

/-- **C07** Every schedule comes to rest: it has at most 13 steps for each call from outside (`NewFuture`, `Then`,
`Complete`, `IsCompleted`), those of the callback goroutines included, whatever the interleaving. -/
theorem C07_comes_to_rest {as : List (Act V)} {h : List (Ev V)} {s : St V}
    (he : (sys V).exec (init V) as = some (s, h)) : as.length ≤ 13 * as.countP outside := rest_bounded he

/-- **C07** And when nothing can go on any more, every callback given to a `Then` call on a completed future has been
started, with the value of the first `Complete`, and has returned. -/
theorem C07_rest_started {h : List (Ev V)} {s : St V} (hr : (sys V).Run h s)
    (hrest : ∀ t, (sys V).step s (.next t) = none) {r f : Nat} {v : V} (ht : Ev.then_ r f ∈ h)
    (hv : firstVal h f = some v) : Ev.start r v ∈ h ∧ Ev.finish r v ∈ h := by
  have hq : Quiet s := by
    intro t
    apply Classical.byContradiction
    intro hp
    rcases C07_no_stuck hr t hp with ⟨s', evs, h1⟩ | ⟨c, t', -, -, s', evs, h1⟩
    · rw [hrest] at h1; cases h1
    · rw [hrest] at h1; cases h1
  refine ⟨C07_all_started hr hq ht hv, ?_⟩
  have I := run_inv hr
  obtain ⟨k, tk, hk, rfl, rfl⟩ := quiet_task I hq ht hv
  exact I.T.d5 k tk hk (by rw [hq]; rfl) (by rw [hq]; rfl)

/-- **C07** `IsCompleted` never goes back: after it has answered true it does not answer false. -/
theorem C07_completed_stays {h : List (Ev V)} {s : St V} (hr : (sys V).Run h s) (f : Nat) :
    ¬ Before h (Ev.obs f true) (Ev.obs f false) := by
  have key : (Ev.obs f true ∈ h → (s.fut f).done = true) ∧ ¬ Before h (Ev.obs f true) (Ev.obs f false) := by
    refine hr.invariant (P := fun h s => (Ev.obs f true ∈ h → (s.fut f).done = true) ∧
      ¬ Before h (Ev.obs f true) (Ev.obs f false)) ⟨by simp, by simp [Before]⟩ ?_
    intro h s a s' evs hr ⟨hi, hb⟩ hs
    have A := (run_inv hr).A
    have hal := alloc_eq A
    have hd : (s.fut f).done = true → (s'.fut f).done = true := by
      have ht := step_tr hs
      intro h0
      cases ht <;> (try simp only [hal, setPc, setFut, spawn]) <;> grind [upd_apply]
    have hev : evs = [] ∨ (∃ e, evs = [e] ∧ ∀ b, e ≠ .obs f b) ∨ (evs = [.obs f (s.fut f).done] ∧ s' = s) := by
      have ht := step_tr hs
      cases ht <;> grind
    rcases hev with rfl | ⟨e, rfl, he⟩ | ⟨rfl, rfl⟩
    · simpa using ⟨fun h => hd (hi h), hb⟩
    · rw [before_append_singleton]
      refine ⟨fun hm => ?_, ?_⟩
      · rcases List.mem_append.1 hm with hm | hm
        · exact hd (hi hm)
        · exact absurd (List.mem_singleton.1 hm).symm (he true)
      · rintro (h1 | ⟨-, h1⟩)
        · exact hb h1
        · exact he false h1.symm
    · rw [before_append_singleton]
      refine ⟨fun hm => ?_, ?_⟩
      · rcases List.mem_append.1 hm with hm | hm
        · exact hi hm
        · simp at hm; exact hm
      · rintro (h1 | ⟨h1, h2⟩)
        · exact hb h1
        · rw [hi h1] at h2; cases h2
  exact key.2

/-- **C07** `IsCompleted` answers true only after a `Complete` call. -/
theorem C07_observed_after_complete {h : List (Ev V)} {s : St V} (hr : (sys V).Run h s) {f : Nat}
    (ho : Ev.obs f true ∈ h) : ∃ v, firstVal h f = some v := by
  have key : ∀ h s, (sys V).Run h s → Ev.obs f true ∈ h → ∃ v, firstVal h f = some v := by
    intro h s hr
    induction hr with
    | init => intro hm; cases hm
    | @step h s a s' evs hr hs ih =>
      intro hm
      rcases List.mem_append.1 hm with hm | hm
      · obtain ⟨v, hv⟩ := ih hm
        refine ⟨v, ?_⟩
        unfold firstVal at hv ⊢
        rw [List.findSome?_append, hv]; rfl
      · have I := run_inv hr
        have ht := step_tr hs
        cases ht <;> simp at hm
        obtain ⟨rfl, hd⟩ := hm
        obtain ⟨v, hv⟩ := I.B.v2 _ hd
        refine ⟨v, ?_⟩
        rw [firstVal_obs]; exact I.B.v1 _ v hv
  exact key h s hr ho

/-- Three goroutines: a callback registered before and one after the completion, both started;
a second `Complete` has no effect. The hypotheses of the C07 theorems hold. -/
example : ∃ s : St Nat, (sys Nat).Run [.then_ 0 0, .child 0 1, .complete (.inl 1) 0 7, .then_ 1 0,
      .child 1 2, .start 1 7, .complete (.inl 2) 0 8, .start 0 7, .finish 0 7, .finish 1 7,
      .complete (.inr 0) 1 7, .obs 0 true] s ∧ Quiet s := by
  refine ⟨_, Lts.run_of_exec (M := sys Nat) (as := [.new, .then_ 0 0, .next (.inl 0), .next (.inl 0),
    .next (.inl 0), .complete 1 0 7, .next (.inl 1), .next (.inl 1), .next (.inl 1), .next (.inl 1),
    .next (.inl 1), .next (.inl 1), .then_ 0 0, .next (.inl 0), .next (.inl 0), .next (.inl 0),
    .next (.inl 0), .next (.inr 1), .complete 2 0 8, .next (.inl 2), .next (.inl 2), .next (.inr 0),
    .next (.inr 0), .next (.inr 1), .next (.inr 0), .next (.inr 0), .next (.inr 0), .next (.inr 0),
    .next (.inr 0), .next (.inr 0), .isCompleted 0]) rfl, ?_⟩
  intro t
  rcases t with u | k
  · simp only [setPc, spawn, setFut, upd_apply]
    by_cases h0 : u = 0 <;> by_cases h1 : u = 1 <;> by_cases h2 : u = 2 <;>
      simp [h0, h1, h2, sys, init]
  · simp only [setPc, spawn, setFut, upd_apply]
    by_cases h0 : k = 0 <;> by_cases h1 : k = 1 <;> simp [h0, h1, sys, init]

/-- **C08** The future returned by a `Then` call that came after the completion is never completed
by the library, in any execution: everything chained on it is lost. -/
theorem C08_late_never_completed {h : List (Ev V)} {s : St V} (hr : (sys V).Run h s) {r f c : Nat}
    (ht : Ev.then_ r f ∈ h) (hl : ¬ Early h r f) (hc : Ev.child r c ∈ h)
    (hu : ∀ u w, Ev.complete (.inl u) c w ∉ h) :
    firstVal h c = none ∧ ∀ r2 v, Ev.then_ r2 c ∈ h → Ev.start r2 v ∉ h := by
  have I := run_inv hr
  have hlate : Late h r f := by
    apply Classical.byContradiction
    intro hn
    exact hl ⟨ht, fun t v hb => hn ⟨t, v, hb⟩⟩
  have hnone : ∀ t w, Ev.complete t c w ∉ h := by
    intro t w hm
    rcases t with u | k
    · exact hu u w hm
    · obtain ⟨tk, h1, h2, h3, _⟩ := I.T.d7 k c w hm
      have h4 := I.K.k6 tk c (List.mem_of_getElem? h1) h2
      have h5 := I.K.k3 _ _ _ h4 hc
      have h6 := I.E.e5 tk (List.mem_of_getElem? h1) f (by rw [h5]; exact ht)
      rw [h5] at h6
      rw [h6.1 hlate] at h2; cases h2
  constructor
  · cases hv : firstVal h c with
    | none => rfl
    | some w => obtain ⟨t, hm⟩ := firstVal_mem hv; exact absurd hm (hnone t w)
  · intro r2 v h2 hs
    obtain ⟨t, hb⟩ := I.T.d8 r2 v hs c h2
    exact hnone t v hb.mem_left

/-- **C08 (refuted)** The full statement is false of the code: `f` is completed, then
`f.Then(a).Then(b)` is called; everything comes to rest, `a` has returned, `b` was not started, and
no continuation of this execution ever starts it (unless somebody completes the intermediate future
by hand). -/
theorem C08_chain_refuted :
    (¬ ∀ (h : List (Ev Nat)) (s : St Nat) (r f c : Nat) (v : Nat), (sys Nat).Run h s →
        ThenCompletes h s r f c v) ∧
    (¬ ∀ (h : List (Ev Nat)) (s : St Nat) (r1 f c r2 : Nat) (v : Nat), (sys Nat).Run h s →
        ChainRuns h s r1 f c r2 v) ∧
    ∃ h s, (sys Nat).Run h s ∧ Quiet s ∧ Ev.then_ 0 0 ∈ h ∧ Ev.child 0 1 ∈ h ∧ Ev.then_ 1 1 ∈ h ∧
      firstVal h 0 = some 7 ∧ Ev.finish 0 7 ∈ h ∧
      ∀ h' s', (sys Nat).Run (h ++ h') s' → (∀ u w, Ev.complete (.inl u) 1 w ∉ h ++ h') →
        ∀ v, Ev.start 1 v ∉ h ++ h' := by
  have hrun : ∃ s : St Nat, (sys Nat).Run [.complete (.inl 0) 0 7, .then_ 0 0, .child 0 1,
      .then_ 1 1, .child 1 2, .start 0 7, .finish 0 7] s ∧ Quiet s := by
    refine ⟨_, Lts.run_of_exec (M := sys Nat) (as := [.new, .complete 0 0 7, .next (.inl 0),
      .next (.inl 0), .next (.inl 0), .next (.inl 0), .next (.inl 0), .then_ 0 0, .next (.inl 0),
      .next (.inl 0), .next (.inl 0), .next (.inl 0), .then_ 0 1, .next (.inl 0), .next (.inl 0),
      .next (.inl 0), .next (.inr 0), .next (.inr 0)]) rfl, ?_⟩
    intro t
    rcases t with u | k
    · simp only [setPc, spawn, setFut, upd_apply]
      by_cases h0 : u = 0 <;> simp [h0, sys, init]
    · simp only [setPc, spawn, setFut, upd_apply]
      by_cases h0 : k = 0 <;> simp [h0, sys, init]
  obtain ⟨s, hrun, hq⟩ := hrun
  have hlate : ∀ h', ¬ Early ([.complete (.inl 0) 0 7, .then_ 0 0, .child 0 1,
      .then_ 1 1, .child 1 2, .start 0 7, .finish 0 7] ++ h' : List (Ev Nat)) 0 0 := by
    intro h' he
    refine he.2 (.inl 0) 7 ?_
    simp [Before]
  refine ⟨?_, ?_, _, s, hrun, hq, by simp, by simp, by simp, rfl, by simp, ?_⟩
  · intro hall
    obtain ⟨t, hb⟩ := hall _ s 0 0 1 7 hrun hq (by simp) (by simp) rfl (by simp)
    have := hb.mem_right
    simp at this
  · intro hall
    have hb := hall _ s 0 0 1 1 7 hrun hq (by simp) (by simp) (by simp) rfl (by simp)
    have := hb.mem_right
    simp at this
  · intro h' s' hr' hu v
    exact (C08_late_never_completed hr' (r := 0) (f := 0) (c := 1) (by simp) (hlate h') (by simp)
      hu).2 1 v (by simp)

/-- **C08 (partial)** The statement holds for every `Then` call that took the lock before any
`Complete` call on its future. Missing: `Then` calls after the completion (see the refutation). -/
theorem C08_then_completes_partial {h : List (Ev V)} {s : St V} (hr : (sys V).Run h s) {r f c : Nat}
    {v : V} (he : Early h r f) : ThenCompletes h s r f c v := by
  intro hq ht hc hv hu
  have I := run_inv hr
  obtain ⟨k, tk, hk, rfl, rfl⟩ := quiet_task I hq ht hv
  have hnl : ¬ Late h tk.reg f := fun ⟨t, w, hb⟩ => he.2 t w hb
  cases hch : tk.child with
  | none => exact absurd ((I.E.e5 tk (List.mem_of_getElem? hk) f ht).2 hch) hnl
  | some c' =>
    have hcc := I.K.k2 _ _ _ (I.K.k6 tk c' (List.mem_of_getElem? hk) hch) hc
    subst hcc
    have hcomp := I.T.d6 k tk c' hk hch (by rw [hq]; rfl)
    obtain ⟨tk', h1, _, _, hb⟩ := I.T.d7 k c' tk.arg hcomp
    rw [hk] at h1; cases h1
    exact ⟨_, hb⟩

/-- **C08 (partial)** `f.Then(a).Then(b)` runs `b` after `a` has returned if the first `Then` came
before the completion of `f`, whenever the second one comes. -/
theorem C08_chain_partial {h : List (Ev V)} {s : St V} (hr : (sys V).Run h s) {r1 f c r2 : Nat}
    {v : V} (he : Early h r1 f) : ChainRuns h s r1 f c r2 v := by
  intro hq ht hc ht2 hv hu
  have I := run_inv hr
  -- `c` was first completed with `v`
  have hval : ∀ t w, Ev.complete t c w ∈ h → w = v ∧ Ev.finish r1 v ∈ h := by
    intro t w hm
    rcases t with u | k
    · exact absurd hm (hu u w)
    · obtain ⟨tk, h1, h2, h3, h4⟩ := I.T.d7 k c w hm
      have h5 := I.K.k3 _ _ _ (I.K.k6 tk c (List.mem_of_getElem? h1) h2) hc
      have h6 := (I.C.c7 tk (List.mem_of_getElem? h1) f (by rw [h5]; exact ht)).1
      have h7 := I.B.v1 f _ h6
      rw [hv] at h7
      have h8 := Option.some.inj h7
      subst h3; subst h5
      exact ⟨h8.symm, h8 ▸ h4.mem_left⟩
  obtain ⟨t, hb⟩ := C08_then_completes_partial hr he hq ht hc hv hu
  have hvc : firstVal h c = some v := by
    cases hx : firstVal h c with
    | none => exact absurd hb.mem_right (firstVal_none hx t v)
    | some w =>
      obtain ⟨t', hm⟩ := firstVal_mem hx
      rw [(hval t' w hm).1]
  have hstart := C07_all_started hr hq ht2 hvc
  -- look at the moment of the start
  obtain ⟨h0, s0, a, s1, evs, rest, hr0, hs0, hmem, heq⟩ := hr.split hstart
  have hr1 := hr0.step hs0
  have I1 := run_inv hr1
  have htr := step_tr hs0
  have hev : evs = [Ev.start r2 v] := by
    cases htr <;> simp at hmem
    obtain ⟨rfl, rfl⟩ := hmem; rfl
  subst hev
  have I0 := run_inv hr0
  obtain ⟨tk2, m1, m2, m3⟩ := I1.T.d3 r2 v (by simp)
  obtain ⟨g, hg⟩ := I1.C.c7e tk2 m1
  rw [m2] at hg
  have hgc : g = c := by
    apply I.C.c1u r2 _ _ _ ht2
    rw [heq]; exact List.mem_append_left _ hg
  subst hgc
  obtain ⟨t1, hb1⟩ := I1.T.d8 r2 v (by simp) g hg
  have hc0 : Ev.complete t1 g v ∈ h0 := by
    have := hb1.mem_left
    simpa using this
  rcases t1 with u | k
  · exact absurd (by rw [heq]; simp [hc0]) (hu u v)
  · obtain ⟨tk, q1, q2, q3, q4⟩ := I0.T.d7 k g v hc0
    have hr1' : tk.reg = r1 := by
      refine I.K.k3 _ _ _ ?_ hc
      have := I0.K.k6 tk g (List.mem_of_getElem? q1) q2
      rw [heq]; simp [this]
    rw [hr1'] at q4
    rw [heq]
    have : Before (h0 ++ [Ev.start r2 v]) (Ev.finish r1 v) (Ev.start r2 v) :=
      before_append_singleton.2 (Or.inr ⟨q4.mem_left, rfl⟩)
    exact this.trans (List.sublist_append_left _ _)

/-- The hypotheses of the partial theorems hold in a run where `b` is chained while `a` runs. -/
example : ∃ s : St Nat, (sys Nat).Run [.then_ 0 0, .child 0 1, .complete (.inl 0) 0 7, .start 0 7,
      .then_ 1 1, .child 1 2, .finish 0 7, .complete (.inr 0) 1 7, .start 1 7, .finish 1 7,
      .complete (.inr 1) 2 7] s ∧ Quiet s := by
  refine ⟨_, Lts.run_of_exec (M := sys Nat) (as := [.new, .then_ 0 0, .next (.inl 0), .next (.inl 0),
    .next (.inl 0), .complete 0 0 7, .next (.inl 0), .next (.inl 0), .next (.inl 0), .next (.inl 0),
    .next (.inl 0), .next (.inl 0), .next (.inr 0), .then_ 0 1, .next (.inl 0), .next (.inl 0),
    .next (.inl 0), .next (.inr 0), .next (.inr 0), .next (.inr 0), .next (.inr 0), .next (.inr 0),
    .next (.inr 0), .next (.inr 0), .next (.inr 0), .next (.inr 1), .next (.inr 1), .next (.inr 1),
    .next (.inr 1), .next (.inr 1), .next (.inr 1), .next (.inr 1), .next (.inr 1)])
    rfl, ?_⟩
  intro t
  rcases t with u | k
  · simp only [setPc, spawn, setFut, upd_apply]
    by_cases h0 : u = 0 <;> simp [h0, sys, init]
  · simp only [setPc, spawn, setFut, upd_apply]
    by_cases h0 : k = 0 <;> by_cases h1 : k = 1 <;> simp [h0, h1, sys, init]

example : Early ([.then_ 0 0, .child 0 1, .complete (.inl 0) 0 7] : List (Ev Nat)) 0 0 := by
  refine ⟨by simp, ?_⟩
  intro t v hb
  have h1 := List.sublist_cons_iff.1 hb
  simp at h1
  have := h1.subset (by simp : Ev.then_ 0 0 ∈ _)
  simp at this

end Braid.Future
