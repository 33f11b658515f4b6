import Verif.Server.Props
import Verif.Server.OpenInv

/-
C94, exactly: which listeners are open in every state, and when `Close` has ended the server.
-/
namespace Braid.Server
open Spec

/-- C94, exactly, in every state: a listener that `Init` made is open iff `Close` was not called, or it was not given to
`Run`, or the goroutine of `Run` has not yet called `Serve`. -/
theorem C94_open_exact {gr : Bool} {h : List LEv} {s : State} (hr : (sys gr).Run h s) (l : Nat) :
    s.isOpen l = true ↔
      .initOk l ∈ h ∧ ((∀ c, .closeCall c ∉ h) ∨ (∀ k, .ran k (some l) ∉ h) ∨ s.g 0 = .start (some l)) := by
  have hi := open_run hr
  rw [hi.open_ l, hi.made l]
  refine and_congr_right fun _ => ?_
  have h1 : s.stopped = false ↔ ∀ c, .closeCall c ∉ h := by
    rw [← Bool.not_eq_true, hi.closed]
    simp
  rw [h1]
  refine or_congr_right ?_
  constructor
  · intro h2
    by_cases h3 : ∃ k, .ran k (some l) ∈ h
    · exact .inr (h2 _ h3.choose_spec)
    · exact .inl fun k hk => h3 ⟨k, hk⟩
  · rintro (h2 | h2) k hk
    · exact absurd hk (h2 k)
    · exact h2

/-- C94, exactly: `Close` has ended the server when it returns iff each listener was given to `Run`, the goroutine of
`Run` has called `Serve`, and, without a graceful stop, no call is running. -/
theorem C94_ends_exact {gr : Bool} {h : List LEv} {s : State} {c : Nat} (hr : (sys gr).Run (h ++ [.closeRet c]) s) :
    ((∀ l, s.isOpen l = false) ∧ running h = 0) ↔
      (∀ l, .initOk l ∈ h → (∃ k, .ran k (some l) ∈ h) ∧ s.g 0 ≠ .start (some l)) ∧ (gr = false → running h = 0) := by
  have hcl : ∃ c', LEv.closeCall c' ∈ h ++ [LEv.closeRet c] := by
    have := C94_returns_once hr c
    have h2 : 0 < (h ++ [LEv.closeRet c]).count (LEv.closeRet c) := List.count_pos_iff.2 (by simp)
    exact ⟨c, List.count_pos_iff.1 (by omega)⟩
  refine and_congr ?_ ?_
  · refine forall_congr' fun l => ?_
    rw [← Bool.not_eq_true, C94_open_exact hr l]
    constructor
    · intro h1 h2
      constructor
      · refine Classical.byContradiction fun h3 => h1 ⟨by simp [h2], .inr (.inl fun k hk => h3 ⟨k, by simpa using hk⟩)⟩
      · exact fun h3 => h1 ⟨by simp [h2], .inr (.inr h3)⟩
    · rintro h1 ⟨h2, h3⟩
      obtain ⟨⟨k, hk⟩, h4⟩ := h1 (by simpa using h2)
      rcases h3 with h3 | h3 | h3
      · obtain ⟨c', hc'⟩ := hcl
        exact h3 c' hc'
      · exact h3 k (by simp [hk])
      · exact h4 h3
  · constructor
    · exact fun h1 _ => h1
    · intro h1
      cases gr with
      | false => exact h1 rfl
      | true => exact C94_graceful_partial hr

/-- A server is closed with one listener that was not given to `Run`: this one stays open, the other does not. -/
example : ∃ s, (sys true).Run [.initOk 0, .ran 0 (some 0), .initOk 1, .closeCall 0, .closeRet 0] s ∧
    s.isOpen 0 = false ∧ s.isOpen 1 = true :=
  ⟨_, Lts.run_of_exec (M := sys true) (as := [.init true, .run, .g 0, .init true, .close 0, .closeRet 0]) rfl, rfl, rfl⟩

end Braid.Server
