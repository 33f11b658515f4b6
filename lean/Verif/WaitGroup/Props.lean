import Verif.WaitGroup.Inv

/-
Property C65: the wait group wrapper. Every theorem quantifies over all interleavings of any number of
goroutines.
-/
namespace Braid.WaitGroup

/-- **C65**, `Count`, the part that holds: when no `Add` or `Done` is in progress it returns the sum of the
arguments of all calls so far, if that sum is an `int32`. What is missing: larger sums. -/
theorem C65_count_partial (n : Nat) {h h1 h2 : List Ev} {s : State} {p : Nat} {x : Int} (hr : (sys n).Run h s)
    (he : h = h1 ++ .count p x :: h2) (hq : Quiet h1) (hm : -2147483648 ≤ called h1) (hM : called h1 < 2147483648) :
    x = called h1 := by
  obtain ⟨h0, s0, a, s1, pre, post, as, rest, r0, st, e1, e2, ex⟩ := hr.split_at he
  obtain ⟨hc, rfl⟩ := count_step st
  simp only [List.append_nil] at e1
  subst e1
  have i := inv_run r0
  rw [← hc, i.counter, psum_quiet i hq, Int.sub_zero, wrap_small hm hM]

/-- **C65** is violated for arguments that are no `int32`: after `Add(1 << 32)` the count is 0 and `Wait`
returns at once. -/
theorem C65_overflow_refuted : ∃ h s, (sys 1).Run h s ∧ Quiet h ∧ called h = 4294967296 ∧ Ev.count 0 0 ∈ h ∧
    Ev.waitRet 0 ∈ h := by
  refine ⟨[.call 0 4294967296, .eff 0 4294967296, .ret 0, .count 0 0, .waitCall 0, .waitRet 0], _,
    Lts.run_of_exec (M := sys 1)
    (as := [.add 0 4294967296, .go 0, .go 0, .count 0, .wait 0, .go 0]) rfl, ?_, rfl, by simp, by simp⟩
  intro p
  simp only [busy, List.foldl, track]
  split <;> simp

/-- **C65**, `Wait`: it returns only at a moment at which all calls that have taken effect sum up to 0, that is
every `Add` is matched by as many `Done`s. -/
theorem C65_wait (n : Nat) {h : List Ev} {s : State} (hr : (sys n).Run h s) (hd : DoneAfterAdd h) :
    WaitsForZero h := by
  intro h1 p h2 he
  obtain ⟨h0, s0, a, s1, pre, post, as, rest, r0, st, e1, e2, ex⟩ := hr.split_at he
  obtain ⟨hc, rfl⟩ := waitRet_step st
  simp only [List.append_nil] at e1
  subst e1
  have i := inv_run r0
  have hp : DoneAfterAdd h1 := by
    intro a p' d b hb
    exact hd a p' d (b ++ .waitRet p :: h2) (by rw [he, hb]; simp)
  have hg := range_of hp
  rw [i.v, wrap_small (by omega) hg.2] at hc
  exact hc

/-- **C65**, panics, the part that holds: used as documented, that is if nothing is added to a sum of 0 while a
`Wait` is in progress, no operation panics. What is missing: uses in which only every `Done` follows its `Add`. -/
theorem C65_no_panic_partial (n : Nat) {h : List Ev} {s : State} (hr : (sys n).Run h s) (hd : Disciplined h) :
    ∀ p, Ev.panic p ∉ h := by
  intro p hp
  obtain ⟨h0, s0, a, s1, evs, rest, r0, st, hm, he⟩ := hr.split hp
  have hd1 : Disciplined (h0 ++ evs) := by rw [he] at hd; exact hd.prefix
  have d := disc_step (inv_run r0) (disc_run r0 hd1.prefix) hd1 st
  have ha := d.alive
  have : s1.crashed = true := by
    replace st : step n s0 a = some (s1, evs) := st
    unfold step go at st
    repeat' split at st
    all_goals first
      | cases st; done
      | skip
    all_goals (simp only [Option.some.injEq, Prod.mk.injEq] at st; obtain ⟨rfl, rfl⟩ := st; simp at hm)
    all_goals rfl
  rw [ha] at this; cases this

/-- **C65** is violated: every `Done` follows its `Add`, but the wait group is used again before a `Wait` that was
released has returned, and that `Wait` panics. -/
theorem C65_reuse_refuted : ∃ h s, (sys 3).Run h s ∧ DoneAfterAdd h ∧ Ev.panic 1 ∈ h := by
  refine ⟨[.call 0 1, .eff 0 1, .ret 0, .waitCall 1, .call 0 (-1), .eff 0 (-1), .ret 0, .call 2 1, .eff 2 1, .ret 2,
    .panic 1], _, Lts.run_of_exec (M := sys 3)
    (as := [.add 0 1, .go 0, .go 0, .wait 1, .go 1, .add 0 (-1), .go 0, .go 0, .go 0, .add 2 1, .go 2, .go 2, .go 1,
      .go 1]) rfl, ?_, by simp⟩
  intro h1 p d h2 he
  rcases h1 with _ | ⟨e1, _ | ⟨e2, _ | ⟨e3, _ | ⟨e4, _ | ⟨e5, _ | ⟨e6, _ | ⟨e7, _ | ⟨e8, _ | ⟨e9, _ | ⟨e10, h1⟩⟩⟩⟩⟩⟩⟩⟩⟩⟩ <;>
    simp at he
  · obtain ⟨rfl, ⟨rfl, rfl⟩, rfl⟩ := he; simp [effect]
  · obtain ⟨rfl, rfl, rfl, rfl, rfl, ⟨rfl, rfl⟩, rfl⟩ := he; simp [effect]
  · obtain ⟨rfl, rfl, rfl, rfl, rfl, rfl, rfl, rfl, ⟨rfl, rfl⟩, rfl⟩ := he; simp [effect]
  · obtain ⟨-, -, -, -, -, -, -, -, -, -, he⟩ := he
    rcases h1 with _ | ⟨e, h1⟩ <;> simp at he

/-- **C65**, `Wait` ends: whenever the calls that have taken effect sum up to 0 and no `Add` or `Done` is in progress,
every `Wait` in progress returns, without a panic, after at most two more steps of each, however these are scheduled. -/
theorem C65_returns (n : Nat) {h h' : List Ev} {s s' : State} {as : List Act} (hr : (sys n).Run h s)
    (hp : ∀ p, Ev.panic p ∉ h) (hq : Quiet h) (h0 : effect h = 0) (ha : ∀ a ∈ as, ∃ p, a = .go p)
    (hx : (sys n).exec s as = some (s', h')) :
    as.length ≤ 2 * waits h ∧ (∀ e ∈ h', ∃ p, e = .waitRet p) ∧
      (waits (h ++ h') = 0 ↔ ∀ p, (sys n).step s' (.go p) = none) := by
  have r := rest_of hr hp hq h0
  obtain ⟨r', g, m⟩ := rest_exec as r ha hx
  have hw := r.inv.waits
  have hw' := r'.inv.waits
  have hpw : cnt s.pc n isParked ≤ cnt s.pc n inWait := cnt_mono _ _ _ _ (by intro b; cases b <;> simp [isParked, inWait])
  have e : waits (h ++ h') = cnt s'.pc n inWait := by unfold waits; omega
  refine ⟨by unfold waits; omega, g, ?_⟩
  rw [e]
  constructor
  · intro h0 p
    have : inWait (s'.pc p) = false := by
      cases hx : inWait (s'.pc p) with
      | false => rfl
      | true =>
        rcases Nat.lt_or_ge p n with h' | h'
        · have := cnt_pos (f := s'.pc) h' hx; omega
        · rw [r'.inv.out p h'] at hx; cases hx
    have h2 := r'.pc p
    simp only [sys, step, go]
    cases hx : s'.pc p <;> simp [hx, inWait, inAdd] at this h2 ⊢
  · intro hn
    have hall : ∀ p, inWait (s'.pc p) = false := by
      intro p
      have hnp := hn p
      have h2 := r'.pc p
      simp only [sys, step, go, r'.alive, Bool.false_eq_true, if_false] at hnp
      cases hx : s'.pc p <;> simp [hx, r'.v, r'.w, inAdd, inWait] at hnp h2 ⊢
      have hpk := r'.inv.parked r'.alive
      rcases Nat.lt_or_ge p n with h' | h'
      · have := cnt_pos (f := s'.pc) (p := isParked) h' (by simp [hx, isParked])
        rw [r'.w, hnp] at hpk
        omega
      · rw [r'.inv.out p h'] at hx; cases hx
    unfold cnt
    rw [List.countP_eq_zero]
    simp [hall]

/-- Two `Wait`s, one of which has been released and one of which comes after the last `Done`. -/
example : ∃ s, (sys 3).Run [.call 0 1, .eff 0 1, .ret 0, .waitCall 1, .call 0 (-1), .eff 0 (-1), .ret 0, .waitCall 2] s ∧
    effect [.call 0 1, .eff 0 1, .ret 0, .waitCall 1, .call 0 (-1), .eff 0 (-1), .ret 0, .waitCall 2] = 0 ∧
    ((sys 3).exec s [.go 1, .go 2, .go 1]).map (·.2) = some [.waitRet 2, .waitRet 1] :=
  ⟨_, Lts.run_of_exec (M := sys 3)
    (as := [.add 0 1, .go 0, .go 0, .wait 1, .go 1, .add 0 (-1), .go 0, .go 0, .go 0, .wait 2]) rfl, rfl, rfl⟩

/-- A use as documented: two units of work, a `Wait`, and a second round after it has returned. -/
example : ∃ h s, (sys 2).Run h s ∧ Ev.waitRet 1 ∈ h ∧ effect h = 1 ∧ (∀ p, Ev.panic p ∉ h) := by
  refine ⟨[.call 0 2, .eff 0 2, .ret 0, .waitCall 1, .call 0 (-1), .eff 0 (-1), .ret 0, .call 0 (-1), .eff 0 (-1),
    .ret 0, .waitRet 1, .call 0 1, .eff 0 1, .ret 0], _, Lts.run_of_exec (M := sys 2)
    (as := [.add 0 2, .go 0, .go 0, .wait 1, .go 1, .add 0 (-1), .go 0, .go 0, .add 0 (-1), .go 0, .go 0, .go 0, .go 1,
      .go 1, .add 0 1, .go 0, .go 0]) rfl, by simp, by simp [effect], by simp⟩

/-- Its beginning is disciplined, and a `Count` in it is quiet. -/
example : Disciplined [.call 0 1, .eff 0 1, .ret 0, .waitCall 1] ∧ Quiet [.call 0 1, .eff 0 1, .ret 0, .waitCall 1] ∧
    called [.call 0 1, .eff 0 1, .ret 0, .waitCall 1] = 1 := by
  refine ⟨?_, ?_, rfl⟩
  · intro h1 p d h2 he
    rcases h1 with _ | ⟨e1, _ | ⟨e2, _ | ⟨e3, _ | ⟨e4, h1⟩⟩⟩⟩ <;> simp at he
    obtain ⟨rfl, ⟨rfl, rfl⟩, rfl⟩ := he
    simp [effect, waits, waitCalls, waitRets]
  · intro p
    simp only [busy, List.foldl, track]
    split <;> simp

end Braid.WaitGroup
