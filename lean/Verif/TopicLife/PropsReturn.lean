import Verif.TopicLife.Props

/-
C104: every call returns, after few commands of its own and whatever the network does.
-/
namespace Braid.TopicLife
open Spec

/-- How many commands a call has left at most. -/
def Pc.left : Pc → Nat
  | .idle => 0
  | .nExists | .cGroups => 3
  | .nAdd | .cLen => 2
  | .nDel _ | .pAdd _ _ | .sGroup _ _ | .cDel => 1

/-- What is seen to be in progress is so. -/
theorem act_back {h : List Ev} {s : State} (hr : sys.Run h s) : ∀ g o, (g, o) ∈ activeOf h → (s.pc g).op = some o := by
  refine hr.invariant (P := fun h s => ∀ g o, (g, o) ∈ activeOf h → (s.pc g).op = some o) (by simp [activeOf, active]) ?_
  intro h s a s' evs _ hi hs g o ho
  replace hs : step s a = some (s', evs) := hs
  have h0 := hi g o
  rw [activeOf_append] at ho
  cases a <;> tl_cases hs
  all_goals simp [List.mem_filter] at ho
  all_goals simp only [at_, xadd, xdel, upd_apply]
  all_goals grind [Pc.op, entry_op]

/-- A step of a call is its last, or brings it nearer to its end. -/
theorem go_left {s : State} {g : Nat} {o : Op} (net : Net) (hop : (s.pc g).op = some o) :
    ∃ s' evs, step s (.go g net) = some (s', evs) ∧
      ((∃ e, .finish g o e ∈ evs) ∨ ((s'.pc g).op = some o ∧ (s'.pc g).left < (s.pc g).left)) := by
  cases hp : s.pc g <;> rw [hp] at hop <;> cases hop
  all_goals simp only [step, stepGo, hp]
  all_goals cases net
  all_goals (try dsimp only)
  all_goals (repeat' split)
  all_goals refine ⟨_, _, rfl, ?_⟩
  all_goals first
    | exact .inl ⟨_, by simp; rfl⟩
    | (simp [at_, Pc.op, Pc.left]; done)

theorem go_done {g : Nat} {o : Op} : ∀ (k : Nat) (s : State) (nets : Nat → Net), (s.pc g).op = some o → (s.pc g).left ≤ k →
    ∃ m s' evs e, m ≤ k ∧ sys.exec s ((List.range m).map fun i => .go g (nets i)) = some (s', evs) ∧ .finish g o e ∈ evs
  | 0, s, _, h, hl => by
    cases hp : s.pc g <;> rw [hp] at h hl
    · cases h
    all_goals simp [Pc.left] at hl
  | k + 1, s, nets, h, hl => by
    obtain ⟨s1, evs1, hs, ⟨e, he⟩ | ⟨h1, h2⟩⟩ := go_left (nets 0) h
    · exact ⟨1, s1, evs1, e, by omega, by simp [Lts.exec, sys, hs], he⟩
    · obtain ⟨m, s2, evs2, e, hm, hx, he⟩ := go_done k s1 (fun i => nets (i + 1)) h1 (by omega)
      refine ⟨m + 1, s2, evs1 ++ evs2, e, by omega, ?_, List.mem_append_right _ he⟩
      rw [List.range_succ_eq_map, List.map_cons, List.map_map]
      exact Lts.exec_cons hs hx

/-- C104: every call that is in progress returns after at most three commands of its own, whatever becomes of each of them: they
may be executed, fail, or be executed without an answer. -/
theorem C104_returns {h : List Ev} {s : State} (hr : sys.Run h s) {g : Nat} {o : Op} (ha : (g, o) ∈ activeOf h) (nets : Nat → Net) :
    ∃ m s' evs e, m ≤ 3 ∧ sys.exec s ((List.range m).map fun i => .go g (nets i)) = some (s', evs) ∧ .finish g o e ∈ evs := by
  refine go_done 3 s nets (act_back hr g o ha) ?_
  cases s.pc g <;> simp [Pc.left]

/-- C104: a new topic is never reported to be unusable, also when a command of it failed: `newTopic` has no error to return. -/
theorem C104_create_silent {h : List Ev} {s : State} (hr : sys.Run h s) {g : Nat} {e : Bool} (hm : .finish g .create e ∈ h) :
    e = false := by
  obtain ⟨h0, s0, a, s1, evs, rest, -, hs, he, -⟩ := hr.split hm
  replace hs : step s0 a = some (s1, evs) := hs
  cases a <;> tl_cases hs
  all_goals simp at he
  all_goals first
    | exact he.2
    | grind

/-- Three commands, all of which fail or lose their answer. -/
example : ∃ h s, sys.Run h s ∧ (0, .create) ∈ activeOf h ∧ .fault 0 .create ∈ h ∧ .finish 1 .create false ∈ h :=
  ⟨_, _, Lts.run_of_exec (M := sys) (as := [.start 1 .create, .go 1 .failed, .go 1 .failed, .start 0 .create, .go 0 .failed]) rfl,
    by decide, by decide, by decide⟩

end Braid.TopicLife
