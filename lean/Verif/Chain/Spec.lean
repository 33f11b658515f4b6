import Verif.Chain.Model

/-
Specification of a chain: one list of labelled steps, run from the left until the first that does not
return nil.
-/
namespace Braid.Chain
variable {S E : Type}

/-- All the given steps run in this order from `s` to `s'` and each returns nil. -/
inductive AllOk : List (Lbl × Step S E) → S → S → Prop
  | nil (s : S) : AllOk [] s s
  | cons {l x xs s s1 s2} : x s = (s1, .ok) → AllOk xs s1 s2 → AllOk ((l, x) :: xs) s s2

/-- The labelled steps of a chain, in the order of the documentation. -/
def steps (c : DefaultChain S E) (hd : Step S E) : List (Lbl × Step S E) :=
  (c.before.zipIdx.map fun p => (Lbl.before p.2, p.1)) ++ [(Lbl.handler, hd)] ++
    (c.after.zipIdx.map fun p => (Lbl.after p.2, p.1))

/-- The outcome of running the labelled steps: all of them return nil, or there is a first one that
does not and nothing after it is run. -/
def Outcome (all : List (Lbl × Step S E)) (s : S) (r : S × List Lbl × Out E) : Prop :=
  (AllOk all s r.1 ∧ r.2.1 = all.map Prod.fst ∧ r.2.2 = .ok) ∨
  ∃ pre l x post s1 o, all = pre ++ (l, x) :: post ∧ AllOk pre s s1 ∧ x s1 = (r.1, o) ∧ o ≠ .ok ∧
    r.2.1 = pre.map Prod.fst ++ [l] ∧ r.2.2 = o

end Braid.Chain
