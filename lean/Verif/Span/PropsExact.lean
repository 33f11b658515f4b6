import Verif.Span.Props

/-
Property C80: exactly when the spans of a call are linked, for every tracer that can write, all metadata and all states.
-/
namespace Braid.Span

/-- **C80**, spans, exactly: for a tracer that writes and reads what it wrote, the server span is a child of the client span iff
the key of the tracer is not one of gRPC and every value that the caller's metadata already hold under it can be read. -/
theorem C80_exact (tr : Tracer) (hl : Lawful tr) (reserved : String → Bool) (s : State) (root md : Option Nat)
    (hw : ∀ a, md = some a → a < s.free) (hi : tr.injects = true) :
    Linked tr reserved s root md ↔
      reserved (tr.lower tr.key) = false ∧ ∀ v ∈ outgoing s md (tr.lower tr.key), (tr.dec v).isSome := by
  constructor
  · intro h
    have hr : reserved (tr.lower tr.key) = false := by
      cases hres : reserved (tr.lower tr.key)
      · rfl
      · exfalso
        obtain ⟨c, b, s1, sv, s2, h1, h2, h3, -⟩ := h
        have he : extract tr (carry reserved (s1.heap b)) = .notFound := by simp [extract, carry, hres]
        have hsp : s1.spans = s.spans ++ [⟨c, root, .client⟩] := by
          have := (client_md tr s root md hw).2.2.1
          rw [h1] at this; exact this
        unfold server at h2
        rw [he] at h2
        simp only [startSpan, Prod.mk.injEq] at h2
        obtain ⟨rfl, -⟩ := h2
        simp [hsp] at h3
    refine ⟨hr, fun v hv => ?_⟩
    cases md with
    | none => simp [outgoing] at hv
    | some a =>
      cases hd : tr.dec v with
      | some x => rfl
      | none => exact absurd h (C80_stale_refuted tr reserved hr s root a (hw a rfl) v hv hd)
  · rintro ⟨hr, hv⟩
    exact C80_linked_partial tr hl reserved s root md hw hi hr hv

/-- A tracer whose key is one of gRPC: nothing is linked. -/
example : Lawful exTracer ∧ exTracer.injects = true ∧
    ¬ Linked exTracer (fun k => k = "trace") ⟨fun _ k => if k = "user" then ["u"] else [], 1, [], 5⟩ (some 3) (some 0) := by
  have hl : Lawful exTracer := by
    intro c
    simp [exTracer]
  refine ⟨hl, rfl, fun h => ?_⟩
  have := ((C80_exact exTracer hl _ _ _ _ (by intro a ha; cases ha; decide) rfl).1 h).1
  revert this
  decide

end Braid.Span
