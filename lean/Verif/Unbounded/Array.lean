import Verif.Unbounded.Inv

/-
The backlog of an unbounded buffer as a slice of an array (C133): model, specification and helper lemmas.

Simplification: a value put is not `nil`; `nil` in a slot is `none`.
-/
namespace Braid.Unbounded
variable {T : Type}

/-! ### Model -/

/-- The slice `b.backlog`: an array, the index of the first element and the number of elements. The capacity of the slice
is the rest of the array. (lib/unbounded/unbounded.go:9-14) -/
structure Arr (T : Type) where
  slots : List (Option T)
  off : Nat
  len : Nat

/-- L32 `append(b.backlog, t)`: into the next slot if the array has one, else the elements are copied to a new array of
`cap` slots, which are `nil` (the runtime chooses `cap`, at least one more than the elements).
(lib/unbounded/unbounded.go:32) -/
def Arr.append (a : Arr T) (cap : Nat) (t : T) : Arr T :=
  if a.off + a.len < a.slots.length then { a with slots := a.slots.set (a.off + a.len) (some t), len := a.len + 1 }
  else { slots := (a.slots.drop a.off).take a.len ++ some t :: List.replicate (cap - (a.len + 1)) none, off := 0,
         len := a.len + 1 }

/-- L42-43 `b.backlog[0] = nil; b.backlog = b.backlog[1:]`. (lib/unbounded/unbounded.go:42-43) -/
def Arr.shift (a : Arr T) : Arr T := { slots := a.slots.set a.off none, off := a.off + 1, len := a.len - 1 }

/-- `St` with the slice instead of the list. (lib/unbounded/unbounded.go:9-14) -/
structure StA (T : Type) where
  ch : Option T
  arr : Arr T
  lock : Option Nat
  pc : Nat → Pc T

/-- `Act`, with the capacity that an `append` chooses if it needs a new array. (lib/unbounded/unbounded.go:21-56) -/
inductive ActA (T : Type)
  | put (g : Nat) (t : T)
  | load (g : Nat)
  | recv (g : Nat)
  | next (g cap : Nat)

/-- lib/unbounded/unbounded.go:17-19 `NewUnbounded`: the slice is `nil`. -/
def initA (T : Type) : StA T := ⟨none, ⟨[], 0, 0⟩, none, fun _ => .idle⟩

/-- `stepNext` with the slice. (lib/unbounded/unbounded.go:22-48) -/
def stepNextA (s : StA T) (g cap : Nat) : Option (StA T × List (Ev T)) :=
  match s.pc g with
  | .idle => none
  | .got => none
  | .putCheck t => -- L24
    if s.arr.len = 0 then some ({ s with pc := upd s.pc g (.putSelect t) }, [])
    else some ({ s with pc := upd s.pc g (.putAppend t) }, [])
  | .putSelect t => -- L25-30
    match s.ch with
    | none => some ({ s with ch := some t, pc := upd s.pc g .unlock }, [])
    | some _ => some ({ s with pc := upd s.pc g (.putAppend t) }, [])
  | .putAppend t => -- L32
    some ({ s with arr := s.arr.append cap t, pc := upd s.pc g .unlock }, [])
  | .loadCheck => -- L39
    if s.arr.len = 0 then some ({ s with pc := upd s.pc g .unlock }, [])
    else some ({ s with pc := upd s.pc g .loadSelect }, [])
  | .loadSelect => -- L40-41, L44
    match s.ch, s.arr.slots[s.arr.off]? with
    | none, some (some b) => some ({ s with ch := some b, pc := upd s.pc g .loadDrop }, [])
    | none, _ => none -- a cleared slot, or none; shown unreachable
    | some _, _ => some ({ s with pc := upd s.pc g .unlock }, [])
  | .loadDrop => -- L42-43
    some ({ s with arr := s.arr.shift, pc := upd s.pc g .unlock }, [])
  | .unlock => -- L27, L33, L47
    some ({ s with lock := none, pc := upd s.pc g .idle }, [])

/-- `step` with the slice. (lib/unbounded/unbounded.go:21-56) -/
def stepA (s : StA T) : ActA T → Option (StA T × List (Ev T))
  | .put g t =>
    match s.pc g, s.lock with
    | .idle, none => some ({ s with lock := some g, pc := upd s.pc g (.putCheck t) }, [.put t])
    | _, _ => none
  | .load g =>
    if (s.pc g).outside then
      match s.lock with
      | none => some ({ s with lock := some g, pc := upd s.pc g .loadCheck }, [])
      | some _ => none
    else none
  | .recv g =>
    if (s.pc g).outside then
      match s.ch with
      | some t => some ({ s with ch := none, pc := upd s.pc g .got }, [.recv t])
      | none => none
    else none
  | .next g cap => stepNextA s g cap

/-- The system. (lib/unbounded/unbounded.go:17-57) -/
def sysA (T : Type) : Lts (StA T) (ActA T) (Ev T) := ⟨initA T, stepA⟩

/-! ### Specification -/

/-- The values that an array keeps alive: those in any of its slots. -/
def Arr.kept (a : Arr T) : List T := a.slots.filterMap id

/-! ### Helper lemmas -/

/-- The slice is the list, and every other slot of the array is `nil`. -/
def Rep (a : Arr T) (l : List T) : Prop :=
  a.len = l.length ∧ ∃ r, a.slots = List.replicate a.off none ++ (l.map some ++ List.replicate r none)

theorem rep_append {a : Arr T} {l : List T} (h : Rep a l) (cap : Nat) (t : T) : Rep (a.append cap t) (l ++ [t]) := by
  obtain ⟨h1, r, h2⟩ := h
  unfold Arr.append
  split
  · rename_i hlt
    refine ⟨by simp [h1], r - 1, ?_⟩
    dsimp only
    rw [h2] at hlt ⊢
    simp only [List.length_append, List.length_replicate, List.length_map] at hlt
    obtain ⟨q, rfl⟩ : ∃ q, r = q + 1 := ⟨r - 1, by omega⟩
    rw [List.set_append_right _ _ (by simp), List.set_append_right _ _ (by simp [h1])]
    simp [h1, List.replicate_succ]
  · refine ⟨by simp [h1], cap - (a.len + 1), ?_⟩
    dsimp only
    rw [h2, List.drop_left' (by simp), List.take_left' (by simp [h1])]
    simp

theorem rep_shift {a : Arr T} {b : T} {l : List T} (h : Rep a (b :: l)) : Rep a.shift l := by
  obtain ⟨h1, r, h2⟩ := h
  refine ⟨by simp [Arr.shift, h1], r, ?_⟩
  simp only [Arr.shift]
  rw [h2, List.set_append_right _ _ (by simp)]
  simp [List.replicate_succ']

theorem rep_kept {a : Arr T} {l : List T} (h : Rep a l) : a.kept = l := by
  obtain ⟨_, r, h2⟩ := h
  have key : ∀ n, (List.replicate n (none : Option T)).filterMap id = [] := by
    intro n; induction n with
    | zero => rfl
    | succ n ih => simp [List.replicate_succ, ih]
  rw [Arr.kept, h2, List.filterMap_append, List.filterMap_append, key, key]
  simp [List.filterMap_map]

theorem rep_get {a : Arr T} {b : T} {l : List T} (h : Rep a (b :: l)) : a.slots[a.off]? = some (some b) := by
  obtain ⟨_, r, h2⟩ := h
  rw [h2, List.getElem?_append_right (by simp)]
  simp

/-- The state with the list. -/
def StA.abs (a : StA T) : St T := ⟨a.ch, a.arr.kept, a.lock, a.pc⟩

/-- The action without the capacity. -/
def ActA.abs : ActA T → Act T
  | .put g t => .put g t
  | .load g => .load g
  | .recv g => .recv g
  | .next g _ => .next g

theorem drop_pos {h : List (Ev T)} {s : St T} (hr : (sys T).Run h s) : ∀ g, s.pc g = .loadDrop → s.backlog ≠ [] := by
  refine Lts.Run.invariant (P := fun _ s => ∀ g, s.pc g = .loadDrop → s.backlog ≠ []) ?_ ?_ hr
  · intro g h; simp [sys, init] at h
  · intro h s a s' evs hr hi hs g hg
    have I := run_inv hr
    change step s a = _ at hs
    have outer : ∀ g', (∀ g'', g'' ≠ g' → s'.pc g'' = s.pc g'') → s'.backlog = s.backlog → s'.pc g' ≠ .loadDrop →
        s'.backlog ≠ [] := by
      intro g' h1 h2 h3
      rw [h2]
      refine hi g ?_
      rw [← h1 g (by rintro rfl; exact h3 hg)]
      exact hg
    have alone : ∀ g', (s.pc g').outside = false → s.pc g = .loadDrop → g = g' := by
      intro g' h1 h2
      have h3 := (I.owner g').1 h1
      have h4 := (I.owner g).1 (by rw [h2]; rfl)
      rw [h3] at h4
      cases h4
      rfl
    cases a with
    | put g' t =>
      simp only [step] at hs
      split at hs
      · cases hs
        exact outer g' (fun _ h => upd_of_ne _ _ h) rfl (by simp)
      · cases hs
    | load g' =>
      simp only [step] at hs
      split at hs
      · split at hs
        · cases hs
          exact outer g' (fun _ h => upd_of_ne _ _ h) rfl (by simp)
        · cases hs
      · cases hs
    | recv g' =>
      simp only [step] at hs
      split at hs
      · split at hs
        · cases hs
          exact outer g' (fun _ h => upd_of_ne _ _ h) rfl (by simp)
        · cases hs
      · cases hs
    | next g' =>
      simp only [step] at hs
      unfold stepNext at hs
      split at hs
      · cases hs
      · cases hs
      · split at hs <;> cases hs <;> exact outer g' (fun _ h => upd_of_ne _ _ h) rfl (by simp)
      · split at hs <;> cases hs <;> exact outer g' (fun _ h => upd_of_ne _ _ h) rfl (by simp)
      · cases hs
        simp
      · split at hs <;> cases hs <;> exact outer g' (fun _ h => upd_of_ne _ _ h) rfl (by simp)
      · split at hs
        · cases hs
          simp_all
        · cases hs
        · cases hs
          exact outer g' (fun _ h => upd_of_ne _ _ h) rfl (by simp)
      · rename_i hp
        cases hs
        by_cases e : g = g'
        · subst e
          simp at hg
        · dsimp only at hg
          rw [upd_of_ne _ _ e] at hg
          exact absurd (alone g' (by rw [hp]; rfl) hg) e
      · cases hs
        exact outer g' (fun _ h => upd_of_ne _ _ h) rfl (by simp)

/-- A step with the slice is a step with the list, and the other way round. -/
theorem abs_step {h : List (Ev T)} {a : StA T} (hr : (sys T).Run h a.abs) (R : Rep a.arr a.arr.kept) (act : ActA T) :
    step a.abs act.abs = (stepA a act).map (fun r => (r.1.abs, r.2)) ∧
      ∀ a' evs, stepA a act = some (a', evs) → Rep a'.arr a'.arr.kept := by
  have I := run_inv hr
  cases act with
  | put g t =>
    simp only [stepA, ActA.abs, step, StA.abs]
    constructor
    · split <;> simp_all
    · intro a' evs hs
      split at hs <;> cases hs
      exact R
  | load g =>
    simp only [stepA, ActA.abs, step, StA.abs]
    constructor
    · split
      · cases hl : a.lock <;> simp_all
      · simp_all
    · intro a' evs hs
      split at hs
      · split at hs <;> cases hs
        exact R
      · cases hs
  | recv g =>
    simp only [stepA, ActA.abs, step, StA.abs]
    constructor
    · split
      · cases hl : a.ch <;> simp_all
      · simp_all
    · intro a' evs hs
      split at hs
      · split at hs <;> cases hs
        exact R
      · cases hs
  | next g cap =>
    have hlen : a.arr.len = 0 ↔ a.arr.kept = [] := by rw [R.1]; exact List.length_eq_zero_iff
    simp only [stepA, ActA.abs, step]
    unfold stepNextA stepNext
    cases hp : a.pc g with
    | putCheck t =>
      have : a.abs.pc g = .putCheck t := hp
      simp only [this]
      cases hk : a.arr.kept with
      | nil => simp_all [StA.abs]
      | cons b l => simp_all [StA.abs]
    | putSelect t =>
      have : a.abs.pc g = .putSelect t := hp
      simp only [this]
      cases hc : a.ch <;> simp_all [StA.abs]
    | putAppend t =>
      have : a.abs.pc g = .putAppend t := hp
      simp only [this]
      have h1 := rep_append R cap t
      have h2 := rep_kept h1
      simp [StA.abs, h2, h1]
    | loadCheck =>
      have : a.abs.pc g = .loadCheck := hp
      simp only [this]
      cases hk : a.arr.kept with
      | nil => simp_all [StA.abs]
      | cons b l => simp_all [StA.abs]
    | loadSelect =>
      have : a.abs.pc g = .loadSelect := hp
      simp only [this]
      have hl : a.lock = some g := (I.owner g).1 (by rw [this]; rfl)
      have hne : a.arr.kept ≠ [] := I.lsel (by simp [holderPc, StA.abs, hl, hp])
      cases hk : a.arr.kept with
      | nil => exact absurd hk hne
      | cons b l =>
        rw [hk] at R
        have hg := rep_get R
        rw [hg]
        cases hc : a.ch <;> simp_all [StA.abs]
    | loadDrop =>
      have : a.abs.pc g = .loadDrop := hp
      simp only [this]
      cases hk : a.arr.kept with
      | nil => exact absurd hk (drop_pos hr g hp)
      | cons b l =>
        rw [hk] at R
        have h1 := rep_shift R
        have h2 := rep_kept h1
        simp [StA.abs, h2, h1, hk]
    | unlock =>
      have : a.abs.pc g = .unlock := hp
      simp only [this]
      simp_all [StA.abs]
    | _ => 
      have : a.abs.pc g = a.pc g := rfl
      rw [hp] at this
      simp [this]

theorem abs_run {h : List (Ev T)} {a : StA T} (hr : (sysA T).Run h a) :
    (sys T).Run h a.abs ∧ Rep a.arr a.arr.kept := by
  refine Lts.Run.invariant (M := sysA T) (P := fun h a => (sys T).Run h a.abs ∧ Rep a.arr a.arr.kept) ?_ ?_ hr
  · exact ⟨.init, rfl, 0, rfl⟩
  · intro h a act a' evs _ hi hs
    obtain ⟨h1, h2⟩ := abs_step hi.1 hi.2 act
    change stepA a act = _ at hs
    rw [hs] at h1
    exact ⟨.step hi.1 h1, h2 a' evs hs⟩

end Braid.Unbounded
