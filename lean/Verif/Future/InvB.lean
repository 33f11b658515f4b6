import Verif.Future.View

/-
Invariant of the future model: results.
-/
namespace Braid.Future
variable {V : Type}

@[simp] theorem firstVal_nil (f : Nat) : firstVal ([] : List (Ev V)) f = none := rfl

theorem firstVal_append (h : List (Ev V)) (e : Ev V) (f : Nat) :
    firstVal (h ++ [e]) f = (firstVal h f).or
      (match e with
        | .complete _ g v => if g = f then some v else none
        | _ => none) := by
  unfold firstVal
  rw [List.findSome?_append]
  cases e <;> simp [List.findSome?]
  split <;> simp_all

theorem firstVal_complete (h : List (Ev V)) (t : Tid) (g : Nat) (v : V) (f : Nat) :
    firstVal (h ++ [.complete t g v]) f =
      match firstVal h f with
      | some w => some w
      | none => if g = f then some v else none := by
  rw [firstVal_append]; cases firstVal h f <;> rfl

theorem firstVal_other (h : List (Ev V)) (e : Ev V) (f : Nat)
    (he : ∀ t g v, e ≠ .complete t g v) : firstVal (h ++ [e]) f = firstVal h f := by
  rw [firstVal_append]
  cases e <;> simp at he ⊢

@[simp] theorem firstVal_child (h : List (Ev V)) (r c f : Nat) :
    firstVal (h ++ [.child r c]) f = firstVal h f := firstVal_other h _ f (by simp)
@[simp] theorem firstVal_then (h : List (Ev V)) (r c f : Nat) :
    firstVal (h ++ [.then_ r c]) f = firstVal h f := firstVal_other h _ f (by simp)
@[simp] theorem firstVal_start (h : List (Ev V)) (r : Nat) (v : V) (f : Nat) :
    firstVal (h ++ [.start r v]) f = firstVal h f := firstVal_other h _ f (by simp)
@[simp] theorem firstVal_finish (h : List (Ev V)) (r : Nat) (v : V) (f : Nat) :
    firstVal (h ++ [.finish r v]) f = firstVal h f := firstVal_other h _ f (by simp)
@[simp] theorem firstVal_obs (h : List (Ev V)) (r : Nat) (b : Bool) (f : Nat) :
    firstVal (h ++ [.obs r b]) f = firstVal h f := firstVal_other h _ f (by simp)

theorem firstVal_mem {h : List (Ev V)} {f : Nat} {v : V} (hv : firstVal h f = some v) :
    ∃ t, Ev.complete t f v ∈ h := by
  unfold firstVal at hv
  obtain ⟨e, he, hx⟩ := List.exists_of_findSome?_eq_some hv
  cases e <;> simp at hx
  rename_i t g w
  obtain ⟨rfl, rfl⟩ := hx
  exact ⟨t, he⟩

theorem firstVal_none {h : List (Ev V)} {f : Nat} (hv : firstVal h f = none) (t : Tid) (v : V) :
    Ev.complete t f v ∉ h := by
  intro hm
  unfold firstVal at hv
  rw [List.findSome?_eq_none_iff] at hv
  have := hv _ hm
  simp at this

structure InvB (h : List (Ev V)) (w : Nat → View V) : Prop where
  v1 : ∀ f v, (w f).fut.result = some v → firstVal h f = some v
  v2 : ∀ f, (w f).fut.done = true → ∃ v, (w f).fut.result = some v
  v3 : ∀ f v, (w f).pc = .compCheck f v → (w f).fut.done = false →
    firstVal h f = some v ∧ (w f).fut.result = none
  v4 : ∀ f v, (w f).pc = .compSet f v →
    (w f).fut.done = false ∧ firstVal h f = some v ∧ (w f).fut.result = none
  v5 : ∀ f v, (w f).pc = .compClose f v → (w f).fut.done = false ∧ (w f).fut.result = some v
  v6 : ∀ f rest, (w f).pc = .compSpawn f rest → (w f).fut.done = true
  v7 : ∀ f v, firstVal h f = some v → (w f).fut.done = true ∨
    (w f).pc = .compCheck f v ∨ (w f).pc = .compSet f v ∨ (w f).pc = .compClose f v
  v8 : ∀ f r, (w f).pc = .thenLate f r → (w f).fut.done = true
  v9 : ∀ f r, (w f).pc = .thenAppend f r → (w f).fut.done = false

theorem invB_init : InvB [] (view (init V)) := by
  constructor <;> simp [init, newFut, view, holder]

set_option maxHeartbeats 1000000 in
theorem invB_step {h : List (Ev V)} {w w' : Nat → View V} {tasks tasks' : List (Task V)}
    {n n' m m' : Nat} {evs : List (Ev V)} (B : InvB h w)
    (ht : TrV w tasks n m w' tasks' n' m' evs) : InvB (h ++ evs) w' := by
  obtain ⟨v1, v2, v3, v4, v5, v6, v7, v8, v9⟩ := B
  have v1' : ∀ f, firstVal h f = none → (w f).fut.result = none := by
    intro f hf
    cases hr : (w f).fut.result with
    | none => rfl
    | some v => rw [v1 f v hr] at hf; cases hf
  cases ht
  case compLock =>
    constructor <;> (try simp only [firstVal_complete]) <;> grind [upd_apply]
  all_goals
    constructor <;> (try simp only [firstVal_child, firstVal_then, firstVal_start, firstVal_finish,
      firstVal_obs, List.append_nil]) <;> first | assumption | grind [upd_apply]

end Braid.Future
