import Verif.Chain.Lemmas

/-
Property C09: event chains (core/actor/actor_chain.go).
-/
namespace Braid.Chain
variable {S E : Type}

/-- **C09** For every chain and every behaviour of its steps: the steps run are the before hooks in
order, then the handler, then the after hooks in order, up to and including the first that does not
return nil; its error is the result; the state is threaded through them. -/
theorem C09_execute_outcome (c : DefaultChain S E) (hd : Step S E) (hh : c.handler = some hd) (s : S) :
    Outcome (steps c hd) s (execute c s) := by
  have hb := loop_outcome .before c.before 0 s
  simp only [steps]
  change Outcome (labelled .before 0 c.before ++ [(Lbl.handler, hd)] ++ labelled .after 0 c.after) s _
  unfold execute
  cases hl : loop Lbl.before 0 c.before s with
  | mk s1 r1 =>
    cases r1 with
    | mk t1 o1 =>
      rw [hl] at hb
      cases o1 with
      | ok =>
        rcases hb with ⟨h1, h2, _⟩ | ⟨_, _, _, _, _, o, _, _, _, h4, _, h6⟩
        · simp only [hh]
          cases hx : hd s1 with
          | mk s2 o2 =>
            cases o2 with
            | ok =>
              have ha := loop_outcome .after c.after 0 s2
              simp only
              have h12 : AllOk (labelled .before 0 c.before ++ [(Lbl.handler, hd)]) s s2 :=
                h1.append (.cons hx (.nil _))
              rcases ha with ⟨a1, a2, a3⟩ | ⟨pre, l, y, post, s3, o, a1, a2, a3, a4, a5, a6⟩
              · left
                refine ⟨h12.append a1, ?_, a3⟩
                simp [a2]; simpa using h2
              · right
                refine ⟨labelled .before 0 c.before ++ [(Lbl.handler, hd)] ++ pre, l, y, post, s3, o,
                  by rw [a1]; simp, h12.append a2, a3, a4, ?_, a6⟩
                simp [a5]; simpa using h2
            | err e =>
              right
              exact ⟨_, .handler, hd, _, s1, _, by simp only [List.append_assoc]; rfl, h1, hx, by simp,
                by simp; simpa using h2, rfl⟩
            | panic =>
              right
              exact ⟨_, .handler, hd, _, s1, _, by simp only [List.append_assoc]; rfl, h1, hx, by simp,
                by simp; simpa using h2, rfl⟩
        · exact absurd h6.symm h4
      | err e =>
        rcases hb with ⟨_, _, h3⟩ | ⟨pre, l, x, post, s0, o, h1, h2, h3, h4, h5, h6⟩
        · cases h3
        · exact Or.inr ⟨pre, l, x, _, s0, o, by rw [h1]; simp only [List.append_assoc]; rfl, h2, h3,
            h4, h5, h6⟩
      | panic =>
        rcases hb with ⟨_, _, h3⟩ | ⟨pre, l, x, post, s0, o, h1, h2, h3, h4, h5, h6⟩
        · cases h3
        · exact Or.inr ⟨pre, l, x, _, s0, o, by rw [h1]; simp only [List.append_assoc]; rfl, h2, h3,
            h4, h5, h6⟩

/-- **C09** `Execute` returns nil iff every step ran and none failed. -/
theorem C09_nil_iff (c : DefaultChain S E) (hd : Step S E) (hh : c.handler = some hd) (s : S) :
    (execute c s).2.2 = .ok ↔
      AllOk (steps c hd) s (execute c s).1 ∧ (execute c s).2.1 = (steps c hd).map Prod.fst := by
  have ho := C09_execute_outcome c hd hh s
  constructor
  · intro h
    rcases ho with ⟨h1, h2, _⟩ | ⟨_, _, _, _, _, o, _, _, _, h4, _, h6⟩
    · exact ⟨h1, h2⟩
    · rw [h6] at h; exact absurd h h4
  · rintro ⟨h1, h2⟩
    rcases ho with ⟨_, _, h3⟩ | ⟨pre, l, x, post, s1, o, a1, a2, a3, a4, a5, a6⟩
    · exact h3
    · exfalso
      rw [a1] at h1
      have : ∀ (pre : List (Lbl × Step S E)) (s s' : S), AllOk (pre ++ (l, x) :: post) s s' →
          AllOk pre s s1 → False := by
        intro pre
        induction pre with
        | nil =>
          intro s s' h1 h2
          cases h2
          cases h1 with
          | cons hx _ => rw [a3] at hx; cases hx; exact a4 rfl
        | cons y ys ih =>
          intro s s' h1 h2
          cases h1 with
          | cons hx h1 =>
            cases h2 with
            | cons hy h2 => rw [hx] at hy; cases hy; exact ih _ _ h1 h2
      exact this pre s _ h1 a2

/-- **C09** The error returned is exactly that of the first failing step. -/
theorem C09_first_error (c : DefaultChain S E) (hd : Step S E) (hh : c.handler = some hd) (s : S)
    (e : E) (he : (execute c s).2.2 = .err e) :
    ∃ pre l x post s1, steps c hd = pre ++ (l, x) :: post ∧ AllOk pre s s1 ∧
      x s1 = ((execute c s).1, .err e) ∧ (execute c s).2.1 = pre.map Prod.fst ++ [l] := by
  rcases C09_execute_outcome c hd hh s with ⟨_, _, h3⟩ | ⟨pre, l, x, post, s1, o, a1, a2, a3, _, a5, a6⟩
  · rw [h3] at he; cases he
  · rw [a6] at he; subst he
    exact ⟨pre, l, x, post, s1, a1, a2, a3, a5⟩

/-- Two before hooks, a handler and two after hooks, the first after hook fails. -/
example :
    let ok : Step (List Nat) Nat := fun s => (s ++ [0], .ok)
    let bad : Step (List Nat) Nat := fun s => (s ++ [1], .err 42)
    execute ⟨[ok, ok], [bad, ok], some ok⟩ [] =
      ([0, 0, 0, 1], [.before 0, .before 1, .handler, .after 0], .err 42) := rfl

end Braid.Chain
