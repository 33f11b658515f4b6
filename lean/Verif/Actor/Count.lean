import Verif.Actor.Drain

/-
Counting lemmas for the wait groups (C12), and the place of `Exit` in a history (C13).
-/
namespace Braid.Actor
open Spec

def aAdded : Ev → Option (Nat × Msg) | .added p m => some (p, m) | _ => none
def aEnter : Ev → Option (Nat × Msg) | .enter p _ m => some (p, m) | _ => none
def aAccepted : Ev → Option (Nat × Msg) | .accepted p _ m => some (p, m) | _ => none

theorem count_added (h : List Ev) (p : Nat) (m : Msg) :
    (h.filterMap aAdded).count (p, m) = (h.filterMap (fAdded p)).count m := by
  induction h with
  | nil => rfl
  | cons e h ih =>
    cases e <;> simp_all [List.filterMap_cons, aAdded, fAdded, List.count_cons]
    split <;> simp_all <;> grind

theorem count_enter (h : List Ev) (p : Nat) (m : Msg) :
    (h.filterMap aEnter).count (p, m) = ((h.filterMap (fEnter p)).map Prod.snd).count m := by
  induction h with
  | nil => rfl
  | cons e h ih =>
    cases e <;> simp_all [List.filterMap_cons, aEnter, fEnter, List.count_cons]
    split <;> simp_all <;> grind

theorem count_accepted (h : List Ev) (p : Nat) (m : Msg) :
    (h.filterMap aAccepted).count (p, m) = ((h.filterMap (fAccepted p)).map Prod.snd).count m := by
  induction h with
  | nil => rfl
  | cons e h ih =>
    cases e <;> simp_all [List.filterMap_cons, aAccepted, fAccepted, List.count_cons]
    split <;> simp_all <;> grind

def ofGroup (g : Nat) (x : Nat × Msg) : Bool := x.2.wg = g

theorem countP_added (g : Nat) (h : List Ev) :
    h.countP (isAdded g) = (h.filterMap aAdded).countP (ofGroup g) := by
  induction h with
  | nil => rfl
  | cons e h ih => cases e <;> simp_all [List.filterMap_cons, aAdded, isAdded, ofGroup, List.countP_cons]

theorem countP_accepted (g : Nat) (h : List Ev) :
    accepted g h = (h.filterMap aAccepted).countP (ofGroup g) := by
  unfold accepted
  induction h with
  | nil => rfl
  | cons e h ih => cases e <;> simp_all [List.filterMap_cons, aAccepted, ofGroup, List.countP_cons]

theorem countP_finished (g : Nat) (h : List Ev) :
    finished g h = (h.filterMap fFinish).countP (ofGroup g) := by
  unfold finished
  induction h with
  | nil => rfl
  | cons e h ih => cases e <;> simp_all [List.filterMap_cons, fFinish, ofGroup, List.countP_cons]

theorem countP_released (g : Nat) (h : List Ev) :
    h.countP (isReleased g) = (h.filterMap fReleased).countP (ofGroup g) := by
  induction h with
  | nil => rfl
  | cons e h ih =>
    cases e <;> simp_all [List.filterMap_cons, fReleased, isReleased, ofGroup, List.countP_cons]

theorem enter_le_added {self : String} {h : List Ev} {s : State} (hr : (sys self).Run h s) (g : Nat) :
    (h.filterMap aEnter).countP (ofGroup g) ≤ h.countP (isAdded g) := by
  rw [countP_added]
  apply List.Subperm.countP_le
  rw [List.subperm_ext_iff]
  rintro ⟨p, m⟩ -
  rw [count_added, count_enter, (invW_run hr).added p, List.count_append]
  omega

theorem accepted_eq_added {self : String} {h : List Ev} {s : State} (hr : (sys self).Run h s) (g : Nat)
    (hidle : ∀ p, s.snd p = .idle) : accepted g h = h.countP (isAdded g) := by
  rw [countP_added, countP_accepted]
  apply List.Perm.countP_eq
  rw [List.perm_iff_count]
  rintro ⟨p, m⟩
  rw [count_added, count_accepted, (invW_run hr).added p, (invW_run hr).enter p, hidle p]
  simp [pendAdd, pendPush]

theorem start_nodup {self : String} {h : List Ev} {s : State} (hr : (sys self).Run h s) :
    ((started h).map Prod.fst).Nodup := by
  have := (Mpsc.C01_exactly_once (invQ_run hr).runQ).1
  rwa [popped_eq] at this

theorem start_enter {self : String} {h : List Ev} {s : State} (hr : (sys self).Run h s) {id : Nat}
    {m : Msg} (hm : .start id m ∈ h) : ∃ p, .enter p id m ∈ h := by
  have := (Mpsc.C01_exactly_once (invQ_run hr).runQ).2 id m (by rw [popped_eq]; exact mem_started.2 hm)
  obtain ⟨p, hp⟩ := this
  exact ⟨p, pushInv_mem hp⟩

theorem started_eq (h : List Ev) : started h = h.filterMap fStart := by
  rfl

def aEnterId : Ev → Option (Nat × Msg) | .enter _ id m => some (id, m) | _ => none

theorem enterId_countP (g : Nat) (h : List Ev) :
    (h.filterMap aEnterId).countP (ofGroup g) = (h.filterMap aEnter).countP (ofGroup g) := by
  induction h with
  | nil => rfl
  | cons e h ih => cases e <;> simp_all [List.filterMap_cons, aEnterId, aEnter, ofGroup, List.countP_cons]

theorem start_le_enter {self : String} {h : List Ev} {s : State} (hr : (sys self).Run h s) (g : Nat) :
    (started h).countP (ofGroup g) ≤ (h.filterMap aEnter).countP (ofGroup g) := by
  rw [← enterId_countP]
  have hn : (started h).Nodup := by
    have := start_nodup hr
    exact List.Pairwise.of_map Prod.fst (fun a b hab => fun e => hab (e ▸ rfl)) this
  apply List.Subperm.countP_le
  apply List.subperm_of_subset hn
  rintro ⟨id, m⟩ hm
  obtain ⟨p, hp⟩ := start_enter hr (mem_started.1 hm)
  exact List.mem_filterMap.2 ⟨_, hp, rfl⟩

theorem released_le_start {self : String} {h : List Ev} {s : State} (hr : (sys self).Run h s) (g : Nat) :
    h.countP (isReleased g) ≤ (started h).countP (ofGroup g) := by
  rw [countP_released, started_eq, (invW_run hr).start, (invW_run hr).finish, List.countP_append,
    List.countP_append]
  omega

/-! ### Exit -/

theorem exec_crashed {self : String} {s s' : State} {as : List Act} {evs : List Ev}
    (hc : s.crashed = true) (he : (sys self).exec s as = some (s', evs)) : evs = [] := by
  cases as with
  | nil => simp [Lts.exec] at he; exact he.2
  | cons a as => simp [Lts.exec, sys, step, hc] at he

theorem closing_shutdown {self : String} {h : List Ev} {s : State} (hr : (sys self).Run h s) :
    .closing ∈ h → s.shutdownCh = true := by
  refine hr.invariant (P := fun h s => .closing ∈ h → s.shutdownCh = true) (by simp) ?_
  intro h s a s' evs _ hi hs
  simp only [sys] at hs
  cases a <;> step_cases hs <;> grind

/-- When `Exit` was called and has returned, the loop had not seen the signal before the call. -/
theorem exit_before_closing {self : String} {h h1 h2 : List Ev} {s : State} {x y : Nat}
    (hr : (sys self).Run h s) (he : h = h1 ++ .exitCall x :: h2) (hret : .exitRet y ∈ h2) :
    .closing ∉ h1 := by
  obtain ⟨h0, s0, a, s1, pre, post, as, rest, r0, st0, e1, e2, ex⟩ := hr.split_at he
  simp only [sys] at st0
  have key : pre = [] ∧ ((s0.shutdownCh = false) ∨ (s1.crashed = true ∧ post = [.crash])) := by
    generalize hev : pre ++ Ev.exitCall x :: post = evs at st0
    cases a <;> step_cases st0 <;> first
      | (exfalso; have : Ev.exitCall x ∈ ([] : List Ev) := by rw [← hev]; simp
         cases this)
      | (cases pre with
         | nil => simp_all
         | cons e pre =>
           exfalso
           simp only [List.cons_append, List.cons.injEq] at hev
           obtain ⟨-, hev⟩ := hev
           cases pre <;> simp_all)
  obtain ⟨rfl, hk⟩ := key
  rw [List.append_nil] at e1
  subst e1
  rcases hk with hk | ⟨hk, rfl⟩
  · intro hc
    rw [closing_shutdown r0 hc] at hk; cases hk
  · have := exec_crashed hk ex
    subst this
    rw [e2] at hret
    simp at hret

end Braid.Actor
