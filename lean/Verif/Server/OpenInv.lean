import Verif.Server.Lemmas

/-
Which listeners are open, from the state (for C94).
-/
namespace Braid.Server
open Spec

/-- What is open, from the state. -/
structure OpenInv (h : List LEv) (s : State) : Prop where
  base : Inv h s
  made : ∀ l, .initOk l ∈ h ↔ l < s.n
  closed : s.stopped = true ↔ ∃ c, .closeCall c ∈ h
  started : ∀ l, s.g 0 = .start l → .ran 0 l ∈ h
  serving : ∀ l, s.g 0 = .serving l → .ran 0 (some l) ∈ h
  open_ : ∀ l, s.isOpen l = true ↔ l < s.n ∧ (s.stopped = false ∨ ∀ k, .ran k (some l) ∈ h → s.g 0 = .start (some l))

theorem open_step {gr : Bool} {h : List LEv} {s s' : State} {a : Act} {evs : List LEv} (hi : OpenInv h s)
    (hs : step gr s a = some (s', evs)) : OpenInv (h ++ evs) s' := by
  have hb := inv_step hi.base hs
  obtain ⟨⟨i1, i2, i3, i4, i5, i6, i7, i8, i9, i10, i11, -⟩, j1, j2, j4, j5, j3⟩ := hi
  refine ⟨hb, ?_, ?_, ?_, ?_, ?_⟩ <;> clear hb <;> simp only [step] at hs <;>
  cases a <;> simp only at hs <;> (repeat' split at hs) <;> (try cases hs) <;> grind [upd_apply]

theorem open_run {gr : Bool} {h : List LEv} {s : State} (hr : (sys gr).Run h s) : OpenInv h s :=
  hr.invariant (P := OpenInv) ⟨inv_run .init, by simp [sys, init], by simp [sys, init], by simp [sys, init], by simp [sys, init], by simp [sys, init]⟩
    fun _ _ _ _ _ _ hi hs => open_step hi hs

end Braid.Server
