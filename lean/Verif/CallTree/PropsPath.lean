import Verif.CallTree.Path

/-
C20 along one branch of a call tree: what is unhandled when a root call has returned nil lies below a call that failed.
-/
namespace Braid.CallTree
open Spec

/-- C20 (partial): a message of the call tree of a root call that has returned nil has been handled if nothing was cut short
on the way to it, whatever happened in other branches of the tree. -/
theorem C20_branch_partial {h : List Ev} {s : State} (hr : sys.Run h s) {c : Nat} (hroot : .root c ∈ h) {e : Bool}
    (hret : .ret c true e ∈ h) {d : Nat} (hd : Clear h c d) (ha : .accepted d ∈ h) : .handled d ∈ h := by
  have h1 := settled_done (invT_run hr) (clear_settled hr hroot hret hd)
  have h2 := (invE_run hr).accepted d ha
  rcases h1 with h1 | ⟨h1, -⟩
  · exact (invE_run hr).over d (by rw [h1]; rfl)
  · rw [h1] at h2; cases h2

/-- C20, what can be wrong: if a message of the call tree of a root call that has returned nil is unhandled, then the waiter
of the root call gave up, or on the way to the message there is a call with a group of its own whose wait was cut short, or
a call that did not wait. -/
theorem C20_blame {h : List Ev} {s : State} (hr : sys.Run h s) {c : Nat} (hroot : .root c ∈ h) {e : Bool}
    (hret : .ret c true e ∈ h) {d : Nat} (hd : Tree h c d) (ha : .accepted d ∈ h) (hn : .handled d ∉ h) :
    .timeout c ∈ h ∨ ∃ x, Tree h c x ∧ Tree h x d ∧ Broken h x := by
  rcases clear_or hd with h1 | (h1 | h1) | h1
  · exact absurd (C20_branch_partial hr hroot hret h1 ha) hn
  · exact .inl h1
  · have := (expired_run hr c h1).2
    rw [(invE_run hr).ret c true e hret] at this
    cases this
  · exact .inr h1

/-- C20: if moreover the wrapper carries no error, the waiter did not give up. -/
theorem C20_blame_no_error {h : List Ev} {s : State} (hr : sys.Run h s) {c : Nat} (hroot : .root c ∈ h)
    (hret : .ret c true false ∈ h) {d : Nat} (hd : Tree h c d) (ha : .accepted d ∈ h) (hn : .handled d ∉ h) :
    ∃ x, Tree h c x ∧ Tree h x d ∧ Broken h x := by
  have he := invE_run hr
  rcases C20_blame hr hroot hret hd ha hn with h1 | h1
  · exact absurd h1 (he.quiet c hret (he.root c hroot))
  · exact h1

/-- A handler makes a call with a group of its own, whose context ends, and then another one that is waited for. -/
def brokenActs : List Act :=
  [.begin (.ext 0) .call 0 0 0, .go 0 false, .go 0 false, .go 0 false, .go 0 false, .go 0 false,
   .take 0, .begin (.hnd 0) .call 1 1 1, .go 1 false, .go 1 false, .go 1 false, .go 1 false, .go 1 false, .expire 1,
   .begin (.hnd 0) .call 2 0 0, .go 2 false, .go 2 false, .go 2 false, .go 2 false, .finish 0, .release 0, .release 0,
   .take 2, .finish 2, .release 2, .release 2, .outer 0 false, .inner 0, .outer 0 false, .outer 0 false, .go 0 false]

def brokenHist : List Ev :=
  [.begin 0 (.ext 0) .call 0, .root 0, .accepted 0, .begin 1 (.hnd 0) .call 1, .root 1, .accepted 1, .expired 1,
   .ret 1 false true, .begin 2 (.hnd 0) .call 0, .accepted 2, .ret 2 true false, .handled 0, .handled 2,
   .ret 0 true false]

/-- The hypotheses of both theorems: call 2 is on a branch where nothing was cut short, and has been handled; call 1 is
unhandled, and to blame. -/
example : (∃ s, sys.Run brokenHist s) ∧ .root 0 ∈ brokenHist ∧ .ret 0 true false ∈ brokenHist ∧
    Clear brokenHist 0 2 ∧ .accepted 2 ∈ brokenHist ∧ Tree brokenHist 0 1 ∧ .accepted 1 ∈ brokenHist ∧
    .handled 1 ∉ brokenHist ∧ Broken brokenHist 1 := by
  have o2 : Own brokenHist 0 2 := ⟨.call, 0, .ext 0, .call, by decide, by decide, by decide⟩
  have n1 : Nested brokenHist 0 1 := .inl ⟨.call, 1, by decide, by decide⟩
  refine ⟨⟨_, Lts.run_of_exec (M := sys) (as := brokenActs) rfl⟩, by decide, by decide,
    .nested (.top (by decide) (by decide)) (.inr (.inl o2)) (.inl o2), by decide, .nested .top n1, by decide, by decide,
    ⟨0, n1, ?_⟩, .inr (.inl (by decide))⟩
  rintro ⟨k, g, t, k', h1, -, h2⟩
  simp [brokenHist] at h1 h2
  obtain ⟨rfl, rfl⟩ := h1
  simp at h2

end Braid.CallTree
