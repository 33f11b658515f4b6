import Verif.Future.Props

/-! Chains of `Then` calls of any length (specification), and a lemma on one `Then` call. -/

namespace Braid.Future
variable {V : Type}

/-- `f.Then(a1).Then(a2)...`: a list of `Then` calls and the futures they returned, each call made on the future before;
nobody completes these futures by hand. -/
def IsChain (h : List (Ev V)) (f : Nat) : List (Nat × Nat) → Prop
  | [] => True
  | (r, c) :: l => Ev.then_ r f ∈ h ∧ Ev.child r c ∈ h ∧ (∀ u w, Ev.complete (.inl u) c w ∉ h) ∧ IsChain h c l

/-- The future at the end of the chain. -/
def endOf (f : Nat) : List (Nat × Nat) → Nat
  | [] => f
  | (_, c) :: l => endOf c l

/-- Every call of the chain came before the completion of the future it was made on. -/
def AllEarly (h : List (Ev V)) (f : Nat) : List (Nat × Nat) → Prop
  | [] => True
  | (r, c) :: l => Early h r f ∧ AllEarly h c l

/-- The future returned by `Then` is completed only with the value of the future before. -/
theorem child_value {h : List (Ev V)} {s : St V} (hr : (sys V).Run h s) {r f c : Nat} (ht : Ev.then_ r f ∈ h)
    (hc : Ev.child r c ∈ h) (hu : ∀ u w, Ev.complete (.inl u) c w ∉ h) {t : Tid} {w : V}
    (hm : Ev.complete t c w ∈ h) : firstVal h f = some w := by
  have I := run_inv hr
  rcases t with u | k
  · exact absurd hm (hu u w)
  · obtain ⟨tk, h1, h2, h3, -⟩ := I.T.d7 k c w hm
    have h5 := I.K.k3 _ _ _ (I.K.k6 tk c (List.mem_of_getElem? h1) h2) hc
    have h6 := (I.C.c7 tk (List.mem_of_getElem? h1) f (by rw [h5]; exact ht)).1
    rw [I.B.v1 f _ h6, h3]

end Braid.Future
