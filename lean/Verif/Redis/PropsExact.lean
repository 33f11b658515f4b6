import Verif.Redis.Props

/-
Property C72: exactly which results are reported right.
-/
namespace Braid.Redis

/-- **C72**, exactly: the result is right iff no command failed. -/
theorem C72_exact (cs : List Cmd) : Reports cs (getCmdsByteSlice cs) ↔ ∀ e, Cmd.err e ∉ cs := by
  constructor
  · intro h e he
    obtain ⟨b, e, h⟩ := h.2 ⟨e, he⟩
    exact C72_never_refuted _ b e h
  · intro h
    refine ⟨fun vs hv => hv ▸ C72_values_partial vs, fun ⟨e, he⟩ => absurd he (h e)⟩

/-- Two commands that succeeded, and one that failed behind them. -/
example : Reports [.str [1], .str [2]] (getCmdsByteSlice [.str [1], .str [2]]) ∧
    ¬ Reports [.str [1], .str [2], .err 0] (getCmdsByteSlice [.str [1], .str [2], .err 0]) := by
  simp [C72_exact]

end Braid.Redis
