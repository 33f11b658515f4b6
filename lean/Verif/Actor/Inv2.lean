import Verif.Actor.Inv
import Batteries.Data.List.Perm

/-
Further invariants of the actor: one task at a time, the wait groups, and closing.
-/
namespace Braid.Actor
open Spec

/-! ### One task at a time -/

/-- Follows the running task along a history; `none` if two tasks overlap. -/
def scan : Option Task → List Ev → Option (Option Task)
  | c, [] => some c
  | c, e :: h =>
    match begins e, ends e with
    | some x, _ => if c = none then scan (some x) h else none
    | none, some x => if c = some x then scan none h else none
    | none, none => scan c h

theorem scan_append (c : Option Task) (h h' : List Ev) :
    scan c (h ++ h') = (scan c h).bind fun c => scan c h' := by
  induction h generalizing c with
  | nil => rfl
  | cons e h ih =>
    simp only [List.cons_append, scan]
    split
    · split
      · exact ih _
      · rfl
    · split
      · exact ih _
      · rfl
    · exact ih _

/-- The task the loop is running. -/
def current : LPc → Option Task
  | .timer t => some (.timer t)
  | .handle id _ => some (.msg id)
  | .action id _ => some (.action id)
  | _ => none

theorem scan_step {self : String} {h : List Ev} {s s' : State} {a : Act} {evs : List Ev}
    (hi : scan none h = some (current s.loop)) (hs : step self s a = some (s', evs)) :
    scan none (h ++ evs) = some (current s'.loop) := by
  rw [scan_append, hi]
  simp only [Option.bind_some]
  cases a <;> step_cases hs <;> simp_all [scan, begins, ends, current]

theorem scan_run {self : String} {h : List Ev} {s : State} (hr : (sys self).Run h s) :
    scan none h = some (current s.loop) :=
  hr.invariant (P := fun h s => scan none h = some (current s.loop)) rfl
    fun _ _ _ _ _ _ hi hs => scan_step hi hs

theorem scan_ended {x : Task} {h : List Ev} (hc : scan (some x) h = some none) :
    ∃ e ∈ h, ends e = some x := by
  induction h with
  | nil => simp [scan] at hc
  | cons e h ih =>
    simp only [scan] at hc
    split at hc
    · simp at hc
    · rename_i y _ he
      split at hc
      · rename_i heq; cases heq; exact ⟨e, by simp, he⟩
      · cases hc
    · obtain ⟨e', h1, h2⟩ := ih hc
      exact ⟨e', by simp [h1], h2⟩

theorem oneAtATime_of_scan {h : List Ev} {c : Option Task} (hc : scan none h = some c) :
    OneAtATime h := by
  intro h1 e1 h2 e2 h3 x y hh hx hy
  rw [hh, List.append_assoc, scan_append] at hc
  cases hs1 : scan none h1 with
  | none => rw [hs1] at hc; cases hc
  | some c1 =>
    rw [hs1] at hc
    simp only [Option.bind_some, List.cons_append, scan, hx] at hc
    split at hc
    · rw [scan_append] at hc
      cases hs2 : scan (some x) h2 with
      | none => rw [hs2] at hc; cases hc
      | some c2 =>
        rw [hs2] at hc
        simp only [Option.bind_some, scan, hy] at hc
        split at hc
        · rename_i hn; subst hn; exact scan_ended hs2
        · cases hc
    · cases hc

/-! ### Wait groups -/

def fAdded (p : Nat) : Ev → Option Msg | .added q m => if q = p then some m else none | _ => none
def fEnter (p : Nat) : Ev → Option (Nat × Msg)
  | .enter q id m => if q = p then some (id, m) else none | _ => none
def fAccepted (p : Nat) : Ev → Option (Nat × Msg)
  | .accepted q id m => if q = p then some (id, m) else none | _ => none
def fStart : Ev → Option (Nat × Msg) | .start id m => some (id, m) | _ => none
def fFinish : Ev → Option (Nat × Msg) | .finish id m _ => some (id, m) | _ => none
def fReleased : Ev → Option (Nat × Msg) | .released id m => some (id, m) | _ => none

def pendAdd : SPc → List Msg | .push m => [m] | _ => []
def pendPush : SPc → List (Nat × Msg) | .pushing id m => [(id, m)] | _ => []
def pendFinish : LPc → List (Nat × Msg) | .handle id m => [(id, m)] | _ => []
def pendRelease : LPc → List (Nat × Msg) | .release id m => [(id, m)] | _ => []

def isAdded (g : Nat) : Ev → Bool | .added _ m => m.wg = g | _ => false
def isReleased (g : Nat) : Ev → Bool | .released _ m => m.wg = g | _ => false

structure InvW (h : List Ev) (s : State) : Prop where
  wg : ∀ g, s.wg g = (h.countP (isAdded g) : Int) - h.countP (isReleased g)
  added : ∀ p, h.filterMap (fAdded p) = (h.filterMap (fEnter p)).map Prod.snd ++ pendAdd (s.snd p)
  enter : ∀ p, h.filterMap (fEnter p) = h.filterMap (fAccepted p) ++ pendPush (s.snd p)
  start : h.filterMap fStart = h.filterMap fFinish ++ pendFinish s.loop
  finish : h.filterMap fFinish = h.filterMap fReleased ++ pendRelease s.loop

theorem invW_init : InvW [] init := by
  constructor <;> simp [init, pendAdd, pendPush, pendFinish, pendRelease]

theorem invW_step {self : String} {h : List Ev} {s s' : State} {a : Act} {evs : List Ev}
    (hi : InvW h s) (hs : step self s a = some (s', evs)) : InvW (h ++ evs) s' := by
  obtain ⟨i1, i2, i3, i4, i5⟩ := hi
  refine ⟨fun g => ?_, fun p => ?_, fun p => ?_, ?_, ?_⟩
  · have := i1 g
    cases a <;> step_cases hs <;>
      simp_all [List.countP_append, isAdded, isReleased, upd_apply, List.countP_cons] <;> grind
  · have := i2 p
    simp only [List.filterMap_append, this, List.map_append, List.append_assoc]
    congr 1
    clear this i1 i2 i3 i4 i5
    cases a <;> step_cases hs <;>
      simp only [List.filterMap_cons, List.filterMap_nil, fAdded, fEnter, List.map_nil, List.nil_append] <;> grind [pendAdd, upd_apply]
  · have := i3 p
    simp only [List.filterMap_append, this, List.append_assoc]
    congr 1
    clear this i1 i2 i3 i4 i5
    cases a <;> step_cases hs <;>
      simp only [List.filterMap_cons, List.filterMap_nil, fAccepted, fEnter, List.append_nil, List.nil_append] <;>
      grind [pendPush, upd_apply]
  · simp only [List.filterMap_append, i4, List.append_assoc]
    congr 1
    clear i1 i2 i3 i4 i5
    cases a <;> step_cases hs <;> simp_all [List.filterMap_cons, fStart, fFinish, pendFinish]
  · simp only [List.filterMap_append, i5, List.append_assoc]
    congr 1
    clear i1 i2 i3 i4 i5
    cases a <;> step_cases hs <;> simp_all [List.filterMap_cons, fReleased, fFinish, pendRelease]

theorem invW_run {self : String} {h : List Ev} {s : State} (hr : (sys self).Run h s) : InvW h s :=
  hr.invariant invW_init fun _ _ _ _ _ _ hi hs => invW_step hi hs

end Braid.Actor
