import Verif.Reenter.Inv

/-
Invariants of the model of reentrant calls: the callbacks given by the user.
-/
namespace Braid.Reenter
open Spec

/-- The callbacks given by the user. -/
structure InvC (h : List Ev) (s : State) : Prop where
  stored : ∀ c k, s.cb c k = .stored → (s.call c).fut = none
  ready : ∀ c k w, s.cb c k = .ready w → (s.call c).fut = some w ∧ ∀ w', .cbStart c k w' ∉ h
  running : ∀ c k w, s.cb c k = .running w → (s.call c).fut = some w ∧ .cbStart c k w ∈ h
  started : ∀ c k w, .cbStart c k w ∈ h → (s.call c).fut = some w ∧
    (s.cb c k = .running w ∨ s.cb c k = .ended)
  ended : ∀ c k, s.cb c k = .ended → ∃ w, .cbStart c k w ∈ h
  attached : ∀ c k, .attach c k ∈ h → s.cb c k ≠ .off
  unused : ∀ c k, s.n ≤ c → s.cb c k = .off

theorem upd_apply2 {γ : Type} (f : Nat → Nat → γ) (a x y : Nat) (b : Nat → γ) :
    upd f a b x y = if x = a then b y else f x y := by
  rw [upd_apply]; split <;> rfl

set_option maxHeartbeats 8000000 in
theorem invC_step {h : List Ev} {s s' : State} {a : Act} {evs : List Ev} (ha : InvA h s) (hi : InvC h s)
    (hs : step s a = some (s', evs)) : InvC (h ++ evs) s' := by
  have hfut : ∀ c, s.n ≤ c → (s.call c).fut = none := fun c hc => (ha.unused c hc).2.2.2.2
  have hg1 : ∀ c, s.n ≤ c → (s.call c).g1 = .ended := fun c hc => (ha.unused c hc).2.2.1
  have hcc := ha.complete
  have hcb : ∀ c, s.n ≤ c → (s.call c).cb1 = .off := fun c hc => (ha.unused c hc).1
  clear ha
  obtain ⟨j1, j2, j3, j4, j5, j6, j7⟩ := hi
  cases a <;> re_cases hs <;> constructor <;> grind [upd_apply, upd_apply2, fire]

theorem invC_run {h : List Ev} {s : State} (hr : sys.Run h s) : InvC h s :=
  hr.invariant (P := InvC) (by constructor <;> simp [sys, init]) fun _ _ _ _ _ hr hi hs =>
    invC_step (invA_run hr) hi hs

end Braid.Reenter
