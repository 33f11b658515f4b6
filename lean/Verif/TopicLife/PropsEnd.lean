import Verif.TopicLife.Props

/-
C104: calls end.
-/
namespace Braid.TopicLife

/-- The number of commands a call has left at most. -/
def cmdsLeft : Pc → Nat
  | .idle => 0
  | .nExists => 3
  | .nAdd => 2
  | .nDel _ => 1
  | .pAdd _ _ => 1
  | .sGroup _ _ => 1
  | .cGroups => 3
  | .cLen => 2
  | .cDel => 1

theorem go_step {s : State} {g : Nat} (net : Net) (hg : s.pc g ≠ .idle) :
    ∃ s' k, step s (.go g net) = some (s', k) ∧ cmdsLeft (s'.pc g) < cmdsLeft (s.pc g) := by
  simp only [step, stepGo]
  cases hp : s.pc g <;> simp only <;> (try (exact absurd hp hg)) <;> repeat' split
  all_goals refine ⟨_, _, rfl, ?_⟩
  all_goals simp [at_, xadd, xdel, cmdsLeft]

/-- C104: every call ends: at any moment, whatever is in Redis and whatever other goroutines and the connection do, the
call of a goroutine sends at most three commands more and then returns. -/
theorem C104_ends (s : State) (g : Nat) (net : Nat → Net) :
    ∃ n s' k, n ≤ 3 ∧ sys.exec s ((List.range n).map fun i => .go g (net i)) = some (s', k) ∧ s'.pc g = .idle := by
  have aux : ∀ m s (net : Nat → Net), cmdsLeft (s.pc g) ≤ m →
      ∃ n s' k, n ≤ m ∧ sys.exec s ((List.range n).map fun i => .go g (net i)) = some (s', k) ∧ s'.pc g = .idle := by
    intro m
    induction m with
    | zero =>
      intro s _ h
      refine ⟨0, s, [], by omega, rfl, ?_⟩
      cases hp : s.pc g <;> rw [hp] at h <;> first | rfl | (simp [cmdsLeft] at h)
    | succ m ih =>
      intro s net h
      by_cases hu : s.pc g = .idle
      · exact ⟨0, s, [], by omega, rfl, hu⟩
      · obtain ⟨s1, k1, hs, h1⟩ := go_step (net 0) hu
        obtain ⟨n, s', k, hn, he, hf⟩ := ih s1 (fun i => net (i + 1)) (by omega)
        refine ⟨n + 1, s', k1 ++ k, by omega, ?_, hf⟩
        rw [List.range_succ_eq_map, List.map_cons, List.map_map]
        have h2 : sys.step s (.go g (net 0)) = some (s1, k1) := hs
        have h3 : sys.exec s1 (List.map ((fun i => Act.go g (net i)) ∘ Nat.succ) (List.range n)) = some (s', k) := he
        simp only [Lts.exec, h2, h3]
  exact aux 3 s net (by cases s.pc g <;> simp [cmdsLeft])

/-- The example: a `Close` of a topic whose stream does not exist. -/
example : ∃ h s, sys.Run h s ∧ s.pc 0 ≠ .idle ∧ s.stream = none :=
  ⟨_, _, Lts.run_of_exec (M := sys) (as := [.start 0 .close]) rfl, by decide, rfl⟩

end Braid.TopicLife
