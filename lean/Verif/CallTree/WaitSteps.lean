import Verif.CallTree.Props
import Verif.CallTree.WaitSpec

/-
How many steps an operation can cause.
-/
namespace Braid.CallTree
open Spec

def CPc.left : CPc → Nat
  | .recv => 6 | .add1 => 5 | .add2 => 4 | .push => 3 | .ready => 2 | .wait => 1 | .rpc => 1 | .returned _ => 0

def MPc.left : MPc → Nat
  | .none => 4 | .queued => 4 | .handling => 3 | .rel1 => 2 | .rel2 => 1 | .done => 0

def Outer.left : Outer → Nat
  | .off => 0 | .blocked => 3 | .sel => 2 | .close => 1 | .ended => 0

def Inner.left : Inner → Nat
  | .off => 1 | .waiting => 1 | .closed => 0

/-- An upper bound on the steps that are left. -/
def left (x : Op) : Nat := x.cpc.left + x.mpc.left + x.outer.left + x.inner.left

def total (op : Nat → Op) : Nat → Nat
  | 0 => 0
  | n + 1 => total op n + left (op n)

theorem total_congr {op op' : Nat → Op} : ∀ {n : Nat}, (∀ c, c < n → op c = op' c) → total op n = total op' n
  | 0, _ => rfl
  | n + 1, h => by rw [total, total, total_congr fun c hc => h c (by omega), h n (by omega)]

theorem total_upd {op : Nat → Op} {c : Nat} {x : Op} : ∀ {n : Nat}, c < n →
    total (upd op c x) n + left (op c) = total op n + left x
  | 0, h => absurd h (by omega)
  | n + 1, h => by
    by_cases hn : c = n
    · subst hn
      have := total_congr (op := upd op c x) (op' := op) (n := c) (fun d hd => upd_of_ne _ _ (by omega))
      simp only [total, upd_same, this]; omega
    · have := total_upd (op := op) (c := c) (x := x) (n := n) (by omega)
      simp only [total, upd_of_ne op x (Ne.symm hn)]; omega

theorem total_new {op : Nat → Op} {n : Nat} {x : Op} : total (upd op n x) (n + 1) = total op n + left x := by
  rw [total, upd_same, total_congr (op' := op)]
  intro c hc; exact upd_of_ne _ _ (by omega)

/-- Every step that is not new work uses up a part of what is left. -/
theorem total_step {s s' : State} {a : Act} {evs : List Ev} (hi : Inv s) (hs : step s a = some (s', evs)) :
    total s'.op s'.n + (if fromUser a then 0 else 1) ≤ total s.op s.n + (if isBegin a then 14 else 0) := by
  have hu : ∀ c x, c < s.n → left x + 1 ≤ left (s.op c) → total (upd s.op c x) s.n + 1 ≤ total s.op s.n := by
    intro c x h1 h2
    have := total_upd (op := s.op) (x := x) h1
    omega
  cases a with
  | begin t k a g w =>
    simp only [step] at hs
    split at hs
    case isFalse => cases hs
    cases hs
    simp only [total_new, fromUser, isBegin, if_true]
    have : ∀ (t : Thr) (k : Kind) (r : Bool), left ⟨t, k, a, g, w, r, if k = .remote then .rpc else .recv, .none, false,
        if r then .blocked else .off, .off⟩ ≤ 14 := by
      intro t k r
      cases r <;> cases k <;> simp [left, CPc.left, MPc.left, Outer.left, Inner.left]
    have := this t k (decide (k = .call ∧ s.cnt g = 0))
    omega
  | setErr w => ct_cases hs; simp [fromUser, isBegin]
  | take a =>
    simp only [fromUser, isBegin]
    have q1 := hi.q.queue a
    have q2 := hi.q.queueLt a
    ct_cases hs
    rename_i m r hb hq
    refine hu m _ (q2 m (by rw [hq]; simp)) ?_
    simp only [left, q1 m (by rw [hq]; simp), MPc.left]
    omega
  | finish a =>
    simp only [fromUser, isBegin]
    have q2 := hi.q.busyLt a
    ct_cases hs
    rename_i m hb hm
    refine hu m _ (q2 m hb) ?_
    simp only [left, hm.1, MPc.left]
    omega
  | release a =>
    simp only [fromUser, isBegin]
    have q2 := hi.q.busyLt a
    ct_cases hs
    all_goals
      rename_i m hb x hm
      refine hu m _ (q2 m hb) ?_
      simp only [left, hm, MPc.left]
      omega
  | go c r =>
    simp only [fromUser, isBegin]
    have e1 : (s.op c).cpc = .push → (s.op c).mpc = .none := fun h => ((hi.ok c).early (by rw [h]; rfl)).1
    ct_cases hs
    all_goals
      refine hu _ _ (by assumption) ?_
      clear hu
      simp_all [left, CPc.left, MPc.left, Outer.left, Inner.left]
      try omega
  | expire c =>
    simp only [fromUser, isBegin]
    ct_cases hs
    all_goals
      refine hu _ _ (by assumption) ?_
      clear hu
      simp_all [left, CPc.left]
      try omega
  | outer c b =>
    simp only [fromUser, isBegin]
    have e1 : (s.op c).outer = .blocked → (s.op c).inner = .off := fun h => (hi.ok c).blocked (by rw [h]; rfl)
    ct_cases hs
    all_goals
      refine hu _ _ (by assumption) ?_
      clear hu
      simp_all [left, Outer.left, Inner.left]
      try omega
  | inner c =>
    simp only [fromUser, isBegin]
    ct_cases hs
    rename_i h1
    refine hu _ _ h1.1 ?_
    simp only [left, h1.2.1, Inner.left]
    omega

theorem steps_le : ∀ (as : List Act) {h h' : List Ev} {s s' : State}, sys.Run h s → sys.exec s as = some (s', h') →
    total s'.op s'.n + (as.filter fun a => !fromUser a).length ≤ total s.op s.n + 14 * (as.filter isBegin).length
  | [], _, _, _, _, _, he => by cases he; simp
  | a :: as, h, h', s, s', hr, he => by
    simp only [Lts.exec] at he
    split at he
    · cases he
    · rename_i s1 e1 hs
      split at he
      · cases he
      · rename_i s2 e2 he2
        simp only [Option.some.injEq, Prod.mk.injEq] at he
        obtain ⟨rfl, rfl⟩ := he
        have h1 := steps_le as (hr.step hs) he2
        have h2 := total_step (inv_run hr) hs
        cases hu : fromUser a <;> cases hb : isBegin a <;> simp [hu, hb] at h2 ⊢ <;> omega

end Braid.CallTree
