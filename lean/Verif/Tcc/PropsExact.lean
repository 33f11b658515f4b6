import Verif.Tcc.Props

/-
Property C83: exactly when a try that overlaps with a pending transaction can do harm, for all histories and all
continuations.
-/
namespace Braid.Tcc

/-- Everything shows the new value: the participant, and all its records. -/
def AllNew (new : Nat) (s : Part) : Prop := s.value = new ∧ ∀ t x, s.pend t = some x → x = new

theorem allNew_step (new : Nat) (s : Part) (o : Op) (h : AllNew new s) : AllNew new (step new s o) := by
  obtain ⟨h1, h2⟩ := h
  cases o with
  | try_ t =>
    refine ⟨rfl, fun u x hx => ?_⟩
    simp only [step, upd_apply] at hx
    split at hx
    · rw [← Option.some.inj hx]; exact h1
    · exact h2 u x hx
  | confirm t =>
    simp only [step]
    split
    · refine ⟨h1, fun u x hx => ?_⟩
      simp only [upd_apply] at hx
      split at hx
      · cases hx
      · exact h2 u x hx
    · exact ⟨h1, h2⟩
  | cancel t =>
    simp only [step]
    split
    · rename_i y hy
      refine ⟨h2 t y hy, fun u x hx => ?_⟩
      simp only [upd_apply] at hx
      split at hx
      · cases hx
      · exact h2 u x hx
    · exact ⟨h1, h2⟩

theorem allNew_foldl (new : Nat) (ops : List Op) (s : Part) (h : AllNew new s) : AllNew new (ops.foldl (step new) s) := by
  induction ops generalizing s with
  | nil => exact h
  | cons o ops ih => exact ih _ (allNew_step new s o h)

theorem committed_append {ops : List Op} (h : Committed ops) (more : List Op) : Committed (ops ++ more) := by
  obtain ⟨p, t, q, rfl, hp⟩ := h
  exact ⟨p, t, q ++ more, by simp, hp⟩

/-- **C83**, exactly which overlaps are harmless: after a history in which none overlapped, with a transaction pending, let
a try of any transaction come, the same or another. Then the value stays right in all continuations iff some transaction
was confirmed before (so that the participant shows the new value anyway). -/
theorem C83_overlap_exact (v new : Nat) (hv : v ≠ new) (p : List Op) (hs : Serial p) (t u : Nat) (ht : Pending p t) :
    (∀ more, RightValue v new (p ++ .try_ u :: more)) ↔ Committed p := by
  obtain ⟨hone, hright, hrec⟩ := serial_value v new p hs
  constructor
  · intro h
    refine Classical.byContradiction fun hc => ?_
    have hpt : (runOps v new p).pend t = some v := by
      rcases hrec t ht with ⟨-, h1⟩ | ⟨h1, -⟩
      · exact absurd h1 hc
      · exact h1
    by_cases hu : u = t
    · subst hu
      have hval : (runOps v new (p ++ .try_ u :: [.cancel u])).value = new := by
        have := hright.1 (.inr ⟨u, ht⟩)
        rw [show p ++ .try_ u :: [.cancel u] = (p ++ [.try_ u]) ++ [.cancel u] by simp, runOps_snoc, runOps_snoc]
        simp [step, this]
      have := (h [.cancel u]).2 ?_
      · rw [hval] at this; exact hv this.symm
      · rw [show p ++ .try_ u :: [.cancel u] = (p ++ [.try_ u]) ++ [.cancel u] by simp, committed_snoc, committed_snoc]
        rintro (((h1 | ⟨w, h1, -⟩) | ⟨w, h1, -⟩) | ⟨w, h1⟩)
        · exact hc h1
        · cases h1
        · cases h1
        · rw [pending_snoc, pending_snoc] at h1
          rcases h1 with h1 | ⟨h1, h2 | ⟨-, h2⟩⟩
          · cases h1
          · cases h2; exact h1 rfl
          · exact h1 (hone u w ht h2)
    · have hval : (runOps v new (p ++ .try_ u :: [.confirm u, .cancel t])).value = v := by
        rw [show p ++ .try_ u :: [.confirm u, .cancel t] = ((p ++ [.try_ u]) ++ [.confirm u]) ++ [.cancel t] by simp,
          runOps_snoc, runOps_snoc, runOps_snoc]
        have hu' : t ≠ u := fun e => hu e.symm
        simp [step, upd_apply, hu', hpt]
      have := (h [.confirm u, .cancel t]).1
        (.inl ⟨p ++ [.try_ u], u, [.cancel t], by simp, (pending_snoc _ _ _).2 (.inl rfl)⟩)
      rw [hval] at this
      exact hv this
  · intro hc more
    have h0 : AllNew new (runOps v new p) := by
      refine ⟨hright.1 (.inl hc), fun w x hx => ?_⟩
      rcases hrec w ((pend_iff v new p w).1 (by rw [hx]; rfl)) with ⟨h1, -⟩ | ⟨-, h1⟩
      · rw [hx] at h1; exact Option.some.inj h1
      · exact absurd hc h1
    have h1 : AllNew new (runOps v new (p ++ .try_ u :: more)) := by
      rw [runOps, List.foldl_append]
      exact allNew_foldl new _ _ h0
    exact ⟨fun _ => h1.1, fun hn => absurd (.inl (committed_append hc _)) hn⟩

/-- A history with a transaction pending, before which nothing was confirmed. -/
example : Serial [.try_ 1] ∧ Pending [.try_ 1] 1 ∧ ¬ Committed [.try_ 1] := by
  refine ⟨?_, rfl, ?_⟩
  · intro p t q e u
    match p, e with
    | [], _ => simp [Pending, last]
    | [a], e => simp at e
    | a :: b :: r, e => have := congrArg List.length e; simp at this
  · rintro ⟨p, t, q, e, -⟩
    have : Op.confirm t ∈ [Op.try_ 1] := by rw [e]; simp
    simp at this

end Braid.Tcc
