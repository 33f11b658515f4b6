import Verif.Grpc.Bound
import Batteries.Data.List.Perm

/-
C53: how many connections are opened to an address when `CallWait`s overlap.
-/
namespace Braid.Grpc
open Braid Spec

variable {max : Nat}

/-- **C53**, for every interleaving: if at no time more than `k` goroutines are in a `CallWait` for an address, then at most
`k` connections to it are ever opened, however many calls are made. -/
theorem C53_bound {h : List Ev} {s : State} (hr : (sys max).Run h s) {k : Nat} {a : String} (hk : AtMost k a h) :
    (openedTo a h).length ≤ k := by
  obtain ⟨W, hd, hm, h1, h2⟩ := invB_run hr hk
  by_cases hc : s.connmap a = none
  · rw [h1 hc]
    exact Nat.le_trans List.countP_le_length
      (hk h [] (by simp) W hd (fun g hg => wait_run hr g a ((hm g).1 hg)))
  · exact Nat.le_trans (Nat.le_add_right _ _) (h2 hc)

/-- After `n` goroutines have dialed and none has stored its connection. -/
structure Dialed (a : String) (n : Nat) (h : List Ev) (s : State) : Prop where
  idle : ∀ i, n ≤ i → s.pc i = .idle
  new : s.connmap a = none
  opened : (openedTo a h).length = n
  begun : ∀ g o, .begin g o ∈ h → g < n

theorem dialed (max : Nat) (a : String) (n : Nat) : ∃ h s, (sys max).Run h s ∧ Dialed a n h s := by
  induction n with
  | zero => exact ⟨_, _, .init, fun _ _ => rfl, rfl, rfl, by simp⟩
  | succ n ih =>
    obtain ⟨h, s, hr, h1, h2, h3, h4⟩ := ih
    have r1 := hr.step (a := .start n (.callWait a)) (s' := { s with pc := upd s.pc n (.wConn a) })
      (evs := [.begin n (.callWait a)]) (by simp [sys, step, h1 n (Nat.le_refl n)])
    have r2 := r1.step (a := .go n true) (s' := { s with pc := upd (upd s.pc n (.wConn a)) n (.wDial a) }) (evs := [])
      (by simp [sys, step, upd_same, h2])
    have r3 := r2.step (a := .go n true)
      (s' := { s with conns := s.conns + 1, pc := upd (upd (upd s.pc n (.wConn a)) n (.wDial a)) n (.wStore a s.conns) })
      (evs := [.opened n a s.conns]) (by simp [sys, step, upd_same])
    refine ⟨_, _, r3, fun i hi => ?_, h2, ?_, fun g o hg => ?_⟩
    · have : i ≠ n := by omega
      simp only [upd_of_ne _ _ this]
      exact h1 i (by omega)
    · simp [openedTo_append, openedTo_cons, openedTo_nil, openStep, h3]
    · simp only [List.mem_append, List.mem_singleton, List.not_mem_nil, or_false, reduceCtorEq, Ev.begin.injEq] at hg
      rcases hg with hg | ⟨rfl, -⟩
      · exact Nat.lt_succ_of_lt (h4 g o hg)
      · exact Nat.lt_succ_self _

/-- **C53**: the bound is reached for every number of overlapping calls: `k` goroutines that call `CallWait` for a new
address at the same time open `k` connections to it. -/
theorem C53_tight_refuted (k : Nat) (a : String) : ∃ h s, (sys max).Run h s ∧ AtMost k a h ∧ (openedTo a h).length = k := by
  obtain ⟨h, s, hr, -, -, h3, h4⟩ := dialed max a k
  refine ⟨h, s, hr, ?_, h3⟩
  intro p q he l hl hw
  have : l ⊆ List.range k := by
    intro g hg
    obtain ⟨u, v, hp, -⟩ := hw g hg
    exact List.mem_range.2 (h4 g (.callWait a) (by rw [he, hp]; simp))
  simpa using (List.subperm_of_subset hl this).length_le

/-- Two goroutines overlap, a third one calls later: two connections, and no third one. -/
example : ∃ h s, (sys 1).Run h s ∧ openedTo "a" h = [0, 1] ∧ .sent 2 "a" 1 true ∈ h :=
  ⟨_, _, Lts.run_of_exec (M := sys 1) (as := [.start 0 (.callWait "a"), .start 1 (.callWait "a"), .go 0 true, .go 1 true,
    .go 0 true, .go 1 true, .go 0 true, .go 1 true, .go 0 true, .go 1 true, .start 2 (.callWait "a"), .go 2 true, .go 2 true])
    rfl, rfl, by decide⟩

/-- The hypotheses of the bound are met with three overlapping calls. -/
example : ∃ h s, (sys 1).Run h s ∧ AtMost 3 "a" h ∧ (openedTo "a" h).length = 3 := C53_tight_refuted 3 "a"

end Braid.Grpc
