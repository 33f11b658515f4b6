import Verif.Timer.Props

/-! C19 and C89, continued: exactly when `Reset` returns true in vain, and when `NextTrigger` is right. -/

namespace Braid.Timer
open Spec

/-- C19, exactly: a `Reset` that returns true leaves the timer active iff it was active before or is given another
interval than the one it has. -/
theorem C19_reset_exact {x x' : T} {now d : Int} (hs : resetT now x d = some (x', true)) :
    x'.active = true ↔ (x.active = true ∨ d ≤ 0 ∨ d ≠ x.interval) := by
  simp only [resetT] at hs
  repeat' split at hs
  all_goals (try cases hs)
  all_goals grind

/-- C89, exactly: on machines that are fast enough, at every idle moment, `NextTrigger` of an undisturbed timer is right
iff it has not ticked yet. Otherwise it is too small by one interval for every tick. -/
theorem C89_exact {h : List Ev} {s : State} {t : Nat} {due interval t0 : Int}
    (hp : Prompt h s) (hm : .made t due interval t0 ∈ h) (hd : 0 ≤ due) (hd' : due ≤ maxMs)
    (hi : 0 < interval) (hi' : interval ≤ maxMs) (hu : Untouched t h) (hidle : Idle s)
    (hc : s.crashed = false) :
    ∃ next, s.now < next ∧
      (∀ (k : Nat) v, (times t h)[k]? = some v → v = next - ((times t h).length - k) * (interval * 1000000)) ∧
      (s.tm t).trigger = next - (times t h).length * (interval * 1000000) ∧
      ((s.tm t).trigger = next ↔ times t h = []) := by
  have e1 := dur_eq hd hd'
  have e2 := dur_eq (by omega) hi'
  have ht := (C89_first_partial hp hm hd hd' hi hi' hu hidle hc).1
  have ho := periodic_of_onTime (by omega) (made_prompt hp hm hu (by omega)) hidle hc
  have hF : first t0 (dur due) (dur interval) = (s.tm t).trigger := by
    rw [ht, e1, e2, first]; split <;> split <;> omega
  rw [hF, e2] at ho
  generalize hL : times t h = l at *
  generalize (s.tm t).trigger = F at *
  have hI : 0 < interval * 1000000 := by omega
  generalize interval * 1000000 = I at *
  refine ⟨F + l.length * I, ?_, ?_, by omega, ?_⟩
  · have := ho l.length
    split at this
    · simp at this
    · omega
  · intro k v hk
    have := ho k
    rw [hk] at this
    split at this
    · simp only [Option.some.injEq] at this
      rw [this, Int.sub_mul]; omega
    · cases this
  · constructor
    · intro h
      have h0 : (l.length : Int) * I = 0 := by omega
      rcases Int.mul_eq_zero.1 h0 with h1 | h1
      · exact List.length_eq_zero_iff.1 (by omega)
      · omega
    · intro h; simp [h]

/-- After its first tick the timer of 1 ms and 2 ms says 1 ms; the next tick comes at 3 ms. -/
example : ∃ h s, Prompt h s ∧ times 0 h = [1000000] ∧ (s.tm 0).trigger ≠ 3000000 ∧
    ∃ next, s.now < next ∧ (s.tm 0).trigger = next - 2000000 := by
  obtain ⟨h, s, h1, h2, h3, h4, h5, h6, -, -, -, h7⟩ := ex_ticked
  obtain ⟨next, a, -, b, -⟩ := C89_exact h1 h2 (by decide) (by decide) (by decide) (by decide) h3 h4 h5
  refine ⟨h, s, h1, h6, by rw [h7]; decide, next, a, ?_⟩
  rw [h6] at b
  simpa using b

/-- A stopped timer is reset to the interval 9, which it did not have. -/
example : ∃ x', resetT 3 ⟨5, false, some ⟨false, 5, 5, false⟩, .sel, 5⟩ 9 = some (x', true) ∧
    x'.active = true :=
  ⟨_, rfl, (C19_reset_exact (x := ⟨5, false, some ⟨false, 5, 5, false⟩, .sel, 5⟩) (now := 3) (d := 9) rfl).2
    (by decide)⟩

end Braid.Timer
