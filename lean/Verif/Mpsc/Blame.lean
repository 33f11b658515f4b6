import Verif.Mpsc.Inv

/-! Lemma for C04: the step with which `Pop` returns nil. -/

namespace Braid.Mpsc
variable {V : Type}

/-- The only step that returns nil is a load of a nil pointer. -/
theorem nil_step {s s' : St V} {a : Act V} {evs : List (Ev V)} {order : List (Nat × V)} {k : Nat}
    (A : InvA s order k) (hs : (sys V).step s a = some (s', evs)) (hnil : Ev.popRet none ∈ evs) :
    s.cons = .load ∧ (s.heap s.tail).next = none ∧ s' = { s with cons := .idle } := by
  cases a with
  | push p x =>
    simp only [sys, step] at hs
    split at hs
    · injection hs with hs; injection hs with _ h2; subst h2; simp at hnil
    · cases hs
  | prod p =>
    simp only [sys, step, stepProd] at hs
    split at hs
    · cases hs
    all_goals (injection hs with hs; injection hs with _ h2; subst h2; simp at hnil)
  | recv =>
    simp only [sys, step] at hs
    split at hs
    · injection hs with hs; injection hs with _ h2; subst h2; simp at hnil
    · cases hs
  | pop =>
    simp only [sys, step] at hs
    split at hs
    · injection hs with hs; injection hs with _ h2; subst h2; simp at hnil
    · injection hs with hs; injection hs with _ h2; subst h2; simp at hnil
    · cases hs
  | cons =>
    simp only [sys, step, stepCons] at hs
    split at hs
    · cases hs
    · cases hs
    · rename_i hc
      split at hs
      · injection hs with hs; injection hs with _ h2; subst h2; simp at hnil
      · rename_i hn; injection hs with hs; injection hs with h1 _; exact ⟨hc, hn, h1.symm⟩
    · injection hs with hs; injection hs with _ h2; subst h2; simp at hnil
    · injection hs with hs; injection hs with _ h2; subst h2; simp at hnil
    · rename_i n v c hc
      injection hs with hs; injection hs with _ h2; subst h2
      have := A.inflightSome.2 n v c hc
      cases v <;> simp_all

end Braid.Mpsc
