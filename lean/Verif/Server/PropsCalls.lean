import Verif.Server.Props

/-
Property C93: exactly which unary calls panic and which reach the handler.
-/
namespace Braid.Server
open Spec

/-- C93, exactly which unary calls panic: those where the first interceptor that does more than to call the next one panics, and those
without such an interceptor whose handler panics. -/
theorem C93_panic_exact {opts : List Opt} {s : Server} (hs : build opts = some s) (r : Res) :
    (unaryCall s r).2 = .panic ↔
      ((∀ i ∈ unaryOf opts, i.kind = .pass) ∧ r = .panic) ∨
      ∃ before i after, unaryOf opts = before ++ i :: after ∧ (∀ j ∈ before, j.kind = .pass) ∧ i.kind = .boom := by
  rw [unaryCall_eq hs]
  generalize unaryOf opts = is
  induction is with
  | nil => simp
  | cons i is ih =>
    rw [List.foldr_cons]
    cases hk : i.kind with
    | pass =>
      have : (call i (is.foldr call ([.handler], r))).2 = .panic ↔ (is.foldr call ([.handler], r)).2 = .panic := by
        simp only [call, hk]
        first | done | (split <;> simp_all)
      rw [this, ih]
      constructor
      · rintro (⟨h1, h2⟩ | ⟨b, j, a, rfl, h1, h2⟩)
        · exact .inl ⟨List.forall_mem_cons.2 ⟨hk, h1⟩, h2⟩
        · exact .inr ⟨i :: b, j, a, rfl, List.forall_mem_cons.2 ⟨hk, h1⟩, h2⟩
      · rintro (⟨h1, h2⟩ | ⟨b, j, a, e, h1, h2⟩)
        · exact .inl ⟨(List.forall_mem_cons.1 h1).2, h2⟩
        · cases b with
          | nil =>
            simp only [List.nil_append, List.cons.injEq] at e
            rw [← e.1, hk] at h2; cases h2
          | cons x b =>
            simp only [List.cons_append, List.cons.injEq] at e
            exact .inr ⟨b, j, a, e.2, (List.forall_mem_cons.1 h1).2, h2⟩
    | boom =>
      have : (call i (is.foldr call ([.handler], r))).2 = .panic := by simp [call, hk]
      simp only [this, true_iff]
      exact .inr ⟨[], i, is, rfl, by simp, hk⟩
    | reject =>
      have : (call i (is.foldr call ([.handler], r))).2 ≠ .panic := by simp [call, hk]
      simp only [this, false_iff]
      rintro (⟨h1, -⟩ | ⟨b, j, a, e, h1, h2⟩)
      · rw [(List.forall_mem_cons.1 h1).1] at hk; cases hk
      · cases b with
        | nil => simp only [List.nil_append, List.cons.injEq] at e; rw [← e.1, hk] at h2; cases h2
        | cons x b =>
          simp only [List.cons_append, List.cons.injEq] at e
          have := (List.forall_mem_cons.1 h1).1
          rw [← e.1, hk] at this; cases this
    | recovery =>
      have : (call i (is.foldr call ([.handler], r))).2 ≠ .panic := by
        simp only [call, hk]; split <;> simp_all
      simp only [this, false_iff]
      rintro (⟨h1, -⟩ | ⟨b, j, a, e, h1, h2⟩)
      · rw [(List.forall_mem_cons.1 h1).1] at hk; cases hk
      · cases b with
        | nil => simp only [List.nil_append, List.cons.injEq] at e; rw [← e.1, hk] at h2; cases h2
        | cons x b =>
          simp only [List.cons_append, List.cons.injEq] at e
          have := (List.forall_mem_cons.1 h1).1
          rw [← e.1, hk] at this; cases this

/-- C93, exactly which unary calls reach the handler: those where all interceptors call the next one. -/
theorem C93_handled_exact {opts : List Opt} {s : Server} (hs : build opts = some s) (r : Res) :
    .handler ∈ (unaryCall s r).1 ↔ ∀ i ∈ unaryOf opts, i.kind = .pass ∨ i.kind = .recovery := by
  rw [unaryCall_eq hs]
  generalize unaryOf opts = is
  induction is with
  | nil => simp
  | cons i is ih =>
    rw [List.foldr_cons, List.forall_mem_cons, ← ih]
    cases hk : i.kind <;> simp only [call, hk] <;> first | simp | (split <;> simp)

/-- A panic behind a recovery is an error; before it, it is a panic, and the handler is not reached. -/
example : ∃ s, build [.unary [⟨1, .recovery⟩, ⟨2, .boom⟩], .handler (some 0)] = some s ∧ (unaryCall s .ok).2 ≠ .panic ∧
    .handler ∉ (unaryCall s .ok).1 := by
  refine ⟨_, rfl, by decide, by decide⟩

end Braid.Server
