import Verif.Context.Props

/-
Property C71: exactly for which keys the values of an actor's context can be relied on.
-/
namespace Braid.Context

/-- A key that a user can give: not those of the package. -/
def Given (k : Key) : Prop := k = .null ∨ ∃ ty c v, k = .user ty c v

/-- **C71**, exactly: whatever the actor was created with, `GetValue` of a key returns the last value set, after all sequences of
calls, iff the key is an ordinary one. For every other key that a user can give there is a call after which it does not. -/
theorem C71_exact (base : Key → Option Val) (a s : Nat) (k : Key) (hg : Given k) :
    (∀ calls, Typed calls k → LastWins base a s calls k) ↔ Plain k := by
  constructor
  · intro h
    refine Classical.byContradiction fun hn => ?_
    -- a value that the actor was not created with
    obtain ⟨n, hv⟩ : ∃ n, base k ≠ some (.user n) := by
      by_cases h0 : base k = some (.user 0)
      · exact ⟨1, by rw [h0]; simp⟩
      · exact ⟨0, h0⟩
    rcases hg with rfl | ⟨ty, c, v, rfl⟩
    · have := h [⟨0, true, .nan, .user n, true⟩] (by intro ty c v e; cases e)
      have : (Res.ok (base .null) : Res (Option Val)) = .ok (some (.user n)) := this
      injection this with this
      exact hv this
    · have := h [⟨ty, c, v, .user n, false⟩] (by
        intro ty' c' v' e x hx _
        cases e
        simp only [List.mem_singleton] at hx
        subst hx; rfl)
      simp only [LastWins, last, Call.key, Option.or, Bool.false_eq_true, if_false, if_true] at this
      cases c
      · have this : (Res.ok (base (.user ty false v)) : Res (Option Val)) = .ok (some (.user n)) := this
        injection this with this
        exact hv this
      · cases v with
        | plain m => exact hn ⟨ty, m, rfl⟩
        | nan =>
          simp [after, make, ctxWithValue, withValue, getValue, look, eq, Call.key] at this
          exact hv this
        | deep => simp [after, make, ctxWithValue, withValue, getValue, look, eq, Call.key] at this
  · intro hk calls ht
    exact C71_value_partial base a s calls k hk ht

/-- Ordinary keys and others that users can give. -/
example : Given (.user 3 true (.plain 1)) ∧ Plain (.user 3 true (.plain 1)) ∧ Given (.user 3 false (.plain 1)) ∧
    ¬ Plain (.user 3 false (.plain 1)) ∧ Given .null :=
  ⟨.inr ⟨_, _, _, rfl⟩, ⟨_, _, rfl⟩, .inr ⟨_, _, _, rfl⟩, (by rintro ⟨ty, n, h⟩; cases h), .inl rfl⟩

end Braid.Context
