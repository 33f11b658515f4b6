import Verif.Book.Step

/-
What lookups return, and sums over the directory.
-/
namespace Braid.Book
open AddressBook Book.Spec
open AddressBook.Spec (Reg weightOf)

variable {cfg : Nat → NodeCfg} {own : String → Nat}

/-- The step at which `GetByID` returns. -/
theorem finish_get {s s' : State} {a : Act} {pre post : List Ev} {g m : Nat} {id : String} {r : Res}
    (hs : step cfg s a = some (s', pre ++ .finish g (.get m id) r :: post)) :
    pre = [] ∧ (r = .broken ∨ id = "" ∧ r = .refused ∨
      id ≠ "" ∧ s.W.idmap m id = true ∧ r = .found ⟨id, "", (cfg m).nodeID, (cfg m).ip, (cfg m).port⟩ ∨
      s.W.redis.ids id = none ∧ r = .unknown ∨ ∃ a, s.W.redis.ids id = some a ∧ r = .found a) := by
  cases a with
  | start g' o =>
    simp only [step] at hs
    split at hs
    · simp only [Option.some.injEq, Prod.mk.injEq] at hs
      obtain ⟨-, he⟩ := hs
      cases pre <;> simp at he
    · cases hs
  | range g' tys =>
    simp only [step, stepRange, at_] at hs
    split at hs
    · split at hs
      · simp only [Option.some.injEq, Prod.mk.injEq] at hs
        obtain ⟨-, he⟩ := hs
        cases pre <;> simp at he
      · cases hs
    · cases hs
  | fail g' =>
    simp only [step, stepFail, ret] at hs
    split at hs
    all_goals first
      | (cases hs; done)
      | skip
    all_goals
      simp only [Option.some.injEq, Prod.mk.injEq] at hs
      obtain ⟨-, he⟩ := hs
      cases pre with
      | nil =>
        simp only [List.nil_append, List.cons.injEq, Ev.finish.injEq] at he
        exact ⟨rfl, .inl he.1.2.2.symm⟩
      | cons x l => simp at he
  | go g' =>
    simp only [step, stepGo, ret, at_] at hs
    repeat' split at hs
    all_goals first
      | (cases hs; done)
      | skip
    all_goals
      simp only [Option.some.injEq, Prod.mk.injEq] at hs
      obtain ⟨-, he⟩ := hs
      cases pre with
      | cons x l => simp at he
      | nil =>
        simp only [List.nil_append, List.cons.injEq, Ev.finish.injEq, Op.get.injEq, reduceCtorEq, false_and, and_false] at he
        try
          obtain ⟨⟨rfl, ⟨rfl, rfl⟩, rfl⟩, -⟩ := he
          refine ⟨rfl, ?_⟩
          simp_all

/-- The step at which `GetByType` returns. -/
theorem finish_list {s s' : State} {a : Act} {pre post : List Ev} {g : Nat} {ty : String} {r : Res}
    (hs : step cfg s a = some (s', pre ++ .finish g (.list ty) r :: post)) :
    pre = [] ∧ (r = .broken ∨ r = .members (s.W.redis.tys ty)) := by
  cases a with
  | start g' o =>
    simp only [step] at hs
    split at hs
    · simp only [Option.some.injEq, Prod.mk.injEq] at hs
      obtain ⟨-, he⟩ := hs
      cases pre <;> simp at he
    · cases hs
  | range g' tys =>
    simp only [step, stepRange, at_] at hs
    split at hs
    · split at hs
      · simp only [Option.some.injEq, Prod.mk.injEq] at hs
        obtain ⟨-, he⟩ := hs
        cases pre <;> simp at he
      · cases hs
    · cases hs
  | fail g' =>
    simp only [step, stepFail, ret] at hs
    split at hs
    all_goals first
      | (cases hs; done)
      | skip
    all_goals
      simp only [Option.some.injEq, Prod.mk.injEq] at hs
      obtain ⟨-, he⟩ := hs
      cases pre with
      | nil =>
        simp only [List.nil_append, List.cons.injEq, Ev.finish.injEq] at he
        exact ⟨rfl, .inl he.1.2.2.symm⟩
      | cons x l => simp at he
  | go g' =>
    simp only [step, stepGo, ret, at_] at hs
    repeat' split at hs
    all_goals first
      | (cases hs; done)
      | skip
    all_goals
      simp only [Option.some.injEq, Prod.mk.injEq] at hs
      obtain ⟨-, he⟩ := hs
      cases pre with
      | cons x l => simp at he
      | nil =>
        simp only [List.nil_append, List.cons.injEq, Ev.finish.injEq, Op.list.injEq, reduceCtorEq, false_and, and_false] at he
        try
          obtain ⟨⟨rfl, rfl, rfl⟩, -⟩ := he
          exact ⟨rfl, .inr rfl⟩

/-- If only ids of the directory count, the sums agree. -/
theorem sum_dir {F : String → Foot} : ∀ (d : List Reg), d.Pairwise (fun a b => a.id ≠ b.id) →
    (∀ r ∈ d, F r.id = .full r.ty r.weight ∧ own r.id = r.node) → ∀ (L : List String), L.Nodup →
    (∀ r ∈ d, r.id ∈ L) → ∀ (n : Nat) (fl : Field), (∀ id ∈ L, (∀ r ∈ d, r.id ≠ id) → contrib own F n fl id = 0) →
    (L.map (contrib own F n fl)).sum = weightOf d (fun r => decide (r.node = n) && (Foot.full r.ty r.weight).counted fl) := by
  intro d
  induction d with
  | nil =>
    intro _ _ L _ _ n fl h0
    simp only [weightOf, List.filter_nil, List.map_nil, List.sum_nil]
    exact sum_zero fun x hx => h0 x hx (by simp)
  | cons r d ih =>
    intro hp hF L hL hsub n fl h0
    rw [List.pairwise_cons] at hp
    -- take `r.id` out of the list
    have hmem := hsub r (by simp)
    have hg := sum_upd hL hmem (g := fun x => if x = r.id then 0 else contrib own F n fl x)
      (g' := contrib own F n fl) (fun x hx => by simp [hx])
    have hL' : ((L.filter (· ≠ r.id)).map (contrib own F n fl)).sum =
        (L.map fun x => if x = r.id then 0 else contrib own F n fl x).sum := by
      clear hg hmem hL hsub h0
      induction L with
      | nil => rfl
      | cons x L ihL =>
        by_cases hx : x = r.id
        · rw [List.filter_cons_of_neg (by simpa using hx), ihL]; simp [hx]
        · rw [List.filter_cons_of_pos (by simpa using hx)]; simp only [List.map_cons, List.sum_cons, ihL, hx, if_false]
    have hrec := ih hp.2 (fun x hx => hF x (by simp [hx])) (L.filter (· ≠ r.id)) (hL.filter _)
      (fun x hx => List.mem_filter.2 ⟨hsub x (by simp [hx]), by simpa using fun h => hp.1 x hx h.symm⟩) n fl
      (fun id hid hno => by
        obtain ⟨h1, h2⟩ := List.mem_filter.1 hid
        refine h0 id h1 fun x hx => ?_
        rcases List.mem_cons.1 hx with rfl | hx
        · exact fun h => (by simpa using h2 : ¬ id = x.id) h.symm
        · exact hno x hx)
    rw [hL'] at hrec
    rw [hg, hrec]
    simp only [if_true]
    obtain ⟨h1, h2⟩ := hF r (by simp)
    unfold weightOf
    simp only [List.filter_cons]
    have hc : contrib own F n fl r.id = if (decide (r.node = n) && (Foot.full r.ty r.weight).counted fl) = true then r.weight else 0 := by
      simp only [contrib, h1, h2, Bool.and_eq_true, decide_eq_true_eq]
      rfl
    rw [hc]
    split
    · simp; omega
    · simp

end Braid.Book
