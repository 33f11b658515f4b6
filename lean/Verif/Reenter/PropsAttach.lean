import Verif.Reenter.Props

/-
C16: only callbacks that were attached are started, with the value of the future.
-/
namespace Braid.Reenter
open Braid Spec

/-- Every callback that is somewhere was attached. -/
theorem known_run {h : List Ev} {s : State} (hr : sys.Run h s) : ∀ c k, s.cb c k ≠ .off → .attach c k ∈ h := by
  refine hr.invariant (P := fun h s => ∀ c k, s.cb c k ≠ .off → .attach c k ∈ h) (by simp [sys, init]) ?_
  intro h s a s' evs _ hi hs c k hk
  simp only [sys] at hs
  cases a <;> simp only [step, complete, setCall] at hs <;> (repeat' split at hs) <;> cases hs <;>
    dsimp only at hk <;> first
    | exact List.mem_append_left _ (hi c k hk)
    | (have := hi c k; simp only [upd_apply2, upd_apply, fire] at hk; grind)

/-- C16: a callback starts only if it was attached before, and the future was completed before with the value that it
gets. -/
theorem C16_only_attached {h1 h2 : List Ev} {s : State} {c k : Nat} {w : Wrap}
    (hr : sys.Run (h1 ++ .cbStart c k w :: h2) s) : .attach c k ∈ h1 ∧ ∃ b, .completed c w b ∈ h1 := by
  obtain ⟨s0, a, s1, r0, hs⟩ := split_one hr
  have hc : s0.cb c k = .ready w := by
    cases a <;> simp only [step, complete, setCall] at hs <;> (repeat' split at hs) <;> cases hs
    assumption
  refine ⟨known_run r0 c k (by rw [hc]; simp), ?_⟩
  have := (invC_run r0).ready c k w hc |>.1
  exact (invB_run r0).ended c w this

/-- A callback attached after the future was completed. -/
example : ∃ h s, sys.Run (h ++ [.cbStart 0 4 ⟨none, some 9⟩]) s ∧ .completed 0 ⟨none, some 9⟩ true ∈ h :=
  ⟨[.begin 0 none, .callRet 0 (.ok (some 9)), .completed 0 ⟨none, some 9⟩ true, .attach 0 4], _,
    Lts.run_of_exec (M := sys) (as := [.begin none none, .then1 0, .callRet 0 (.ok (some 9)), .g2 0, .push 0, .select, .loop,
      .loop, .attach 0 4, .cbRun 0 4]) rfl, by simp⟩

end Braid.Reenter
