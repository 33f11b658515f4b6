import Verif.Future.Chain

/-! C08, continued: exactly which callbacks of a chain run. -/

namespace Braid.Future
variable {V : Type}

/-- **C08**, exactly, for one `Then` call: when everything has come to rest, the future it returned has the value of the
future it was called on if the call came before the completion, and no value otherwise. -/
theorem C08_exact {h : List (Ev V)} {s : St V} (hr : (sys V).Run h s) (hq : Quiet s) {r f c : Nat}
    (ht : Ev.then_ r f ∈ h) (hc : Ev.child r c ∈ h) (hu : ∀ u w, Ev.complete (.inl u) c w ∉ h) (v : V) :
    firstVal h c = some v ↔ firstVal h f = some v ∧ Early h r f := by
  constructor
  · intro hv
    obtain ⟨t, hm⟩ := firstVal_mem hv
    refine ⟨child_value hr ht hc hu hm, Classical.byContradiction fun hn => ?_⟩
    rw [(C08_late_never_completed hr ht hn hc hu).1] at hv
    cases hv
  · rintro ⟨hv, he⟩
    obtain ⟨t, hb⟩ := C08_then_completes_partial hr he hq ht hc hv hu
    cases hx : firstVal h c with
    | none => exact absurd hb.mem_right (firstVal_none hx t v)
    | some w =>
      obtain ⟨t', hm⟩ := firstVal_mem hx
      have := child_value hr ht hc hu hm
      rw [hv] at this
      exact this.symm

/-- **C08**, exactly, for chains of any length: when everything has come to rest, the callback at the end of the chain
has been started, with `v`, iff the first future was completed with `v` and every `Then` call before it in the chain came
before the completion of the future it was made on. When its own call came does not matter. -/
theorem C08_chain_exact {h : List (Ev V)} {s : St V} (hr : (sys V).Run h s) (hq : Quiet s) (l : List (Nat × Nat))
    (f : Nat) (hl : IsChain h f l) {r : Nat} (ht : Ev.then_ r (endOf f l) ∈ h) (v : V) :
    Ev.start r v ∈ h ↔ firstVal h f = some v ∧ AllEarly h f l := by
  induction l generalizing f with
  | nil =>
    simp only [endOf] at ht
    simp only [AllEarly, and_true]
    constructor
    · intro hs
      obtain ⟨g, t, h1, h2, -⟩ := C07_started_with_first_value hr hs
      rwa [(run_inv hr).C.c1u r _ _ ht h1]
    · exact fun hv => C07_all_started hr hq ht hv
  | cons p l ih =>
    obtain ⟨q, c⟩ := p
    obtain ⟨h1, h2, h3, h4⟩ := hl
    rw [ih c h4 ht, C08_exact hr hq h1 h2 h3, AllEarly, and_assoc]

/-- A run in which `b` is chained while `a` runs: `b` is started, so by the theorem its chain was early. -/
example : ∃ (h : List (Ev Nat)) (s : St Nat), (sys Nat).Run h s ∧ Quiet s ∧ IsChain h 0 [(0, 1)] ∧
    Ev.then_ 1 (endOf 0 [(0, 1)]) ∈ h ∧ Ev.start 1 7 ∈ h ∧ AllEarly h 0 [(0, 1)] := by
  have hrun : ∃ s : St Nat, (sys Nat).Run [.then_ 0 0, .child 0 1, .complete (.inl 0) 0 7, .start 0 7,
      .then_ 1 1, .child 1 2, .finish 0 7, .complete (.inr 0) 1 7, .start 1 7, .finish 1 7,
      .complete (.inr 1) 2 7] s ∧ Quiet s := by
    refine ⟨_, Lts.run_of_exec (M := sys Nat) (as := [.new, .then_ 0 0, .next (.inl 0), .next (.inl 0),
      .next (.inl 0), .complete 0 0 7, .next (.inl 0), .next (.inl 0), .next (.inl 0), .next (.inl 0),
      .next (.inl 0), .next (.inl 0), .next (.inr 0), .then_ 0 1, .next (.inl 0), .next (.inl 0),
      .next (.inl 0), .next (.inr 0), .next (.inr 0), .next (.inr 0), .next (.inr 0), .next (.inr 0),
      .next (.inr 0), .next (.inr 0), .next (.inr 0), .next (.inr 1), .next (.inr 1), .next (.inr 1),
      .next (.inr 1), .next (.inr 1), .next (.inr 1), .next (.inr 1), .next (.inr 1)])
      rfl, ?_⟩
    intro t
    rcases t with u | k
    · simp only [setPc, spawn, setFut, upd_apply]
      by_cases h0 : u = 0 <;> simp [h0, sys, init]
    · simp only [setPc, spawn, setFut, upd_apply]
      by_cases h0 : k = 0 <;> by_cases h1 : k = 1 <;> simp [h0, h1, sys, init]
  obtain ⟨s, hr, hq⟩ := hrun
  refine ⟨_, s, hr, hq, by simp [IsChain], by simp [endOf], by simp, ?_⟩
  exact ((C08_chain_exact (r := 1) hr hq [(0, 1)] 0 (by simp [IsChain]) (by simp [endOf]) 7).1 (by simp)).2

end Braid.Future
