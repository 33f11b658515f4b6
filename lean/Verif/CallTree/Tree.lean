import Verif.CallTree.Count

/-
What the history says about the state, and the part of a call tree that shares a wait group.
-/
namespace Braid.CallTree
open Spec

def Outer.fin : Outer → Bool
  | .close | .ended => true
  | _ => false

structure InvE (h : List Ev) (s : State) : Prop where
  lt : ∀ c t k g, .begin c t k g ∈ h → c < s.n
  thr : ∀ c t k g, .begin c t k g ∈ h → (s.op c).thr = t
  kind : ∀ c t k g, .begin c t k g ∈ h → (s.op c).kind = k
  grp : ∀ c t k g, .begin c t k g ∈ h → (s.op c).grp = g
  root : ∀ c, .root c ∈ h → (s.op c).root = true
  rootLt : ∀ c, .root c ∈ h → c < s.n
  accepted : ∀ c, .accepted c ∈ h → (s.op c).mpc.isIn = true
  handled : ∀ c, .handled c ∈ h → (s.op c).mpc.over = true
  over : ∀ c, (s.op c).mpc.over = true → .handled c ∈ h
  ret : ∀ c ok e, .ret c ok e ∈ h → (s.op c).cpc = .returned ok
  retLt : ∀ c ok e, .ret c ok e ∈ h → c < s.n
  fin : ∀ c, (s.op c).outer.fin = true → (s.op c).inner = .closed ∨ .timeout c ∈ h
  failed : ∀ c, c < s.n → (s.op c).cpc = .returned false → (s.op c).mpc = .none ∧ (s.op c).kind ≠ .remote ∨ .expired c ∈ h
  timeout : ∀ c, .timeout c ∈ h → s.err (s.op c).wrp = true
  timeoutFin : ∀ c, .timeout c ∈ h → (s.op c).outer.fin = true
  quiet : ∀ c, .ret c true false ∈ h → (s.op c).root = true → .timeout c ∉ h

theorem invE_begin {h : List Ev} {s : State} {t : Thr} {k : Kind} {a g w : Nat} {s' : State} {evs : List Ev}
    (hi : Inv s) (he : InvE h s) (hs : step s (.begin t k a g w) = some (s', evs)) : InvE (h ++ evs) s' := by
  obtain ⟨e1, e2, e3, e4, e5, e6, e7, e8, e9, e10, e11, e12, e13, e14, e15, e16⟩ := he
  have b1 := hi.b.unused
  simp only [step] at hs
  split at hs
  case isFalse => cases hs
  cases hs
  constructor <;> grind [upd_apply, noOp, MPc.isIn, MPc.over, Outer.fin]

set_option maxHeartbeats 1000000 in
theorem invE_step {h : List Ev} {s s' : State} {a : Act} {evs : List Ev} (hi : Inv s) (he : InvE h s)
    (hs : step s a = some (s', evs)) : InvE (h ++ evs) s' := by
  cases a with
  | begin t k a g w => exact invE_begin hi he hs
  | go c r =>
    obtain ⟨e1, e2, e3, e4, e5, e6, e7, e8, e9, e10, e11, e12, e13, e14, e15, e16⟩ := he
    have := (hi.ok c).early
    have := (hi.ok c).late
    ct_cases hs <;> constructor <;> grind [upd_apply, MPc.isIn, MPc.over, Outer.fin, CPc.early, CPc.late]
  | expire c =>
    obtain ⟨e1, e2, e3, e4, e5, e6, e7, e8, e9, e10, e11, e12, e13, e14, e15, e16⟩ := he
    ct_cases hs <;> constructor <;> grind [upd_apply, MPc.isIn, MPc.over, Outer.fin]
  | outer c b =>
    obtain ⟨e1, e2, e3, e4, e5, e6, e7, e8, e9, e10, e11, e12, e13, e14, e15, e16⟩ := he
    have := (hi.ok c).retRoot
    ct_cases hs <;> constructor <;> grind [upd_apply, MPc.isIn, MPc.over, Outer.fin]
  | inner c =>
    obtain ⟨e1, e2, e3, e4, e5, e6, e7, e8, e9, e10, e11, e12, e13, e14, e15, e16⟩ := he
    ct_cases hs <;> constructor <;> grind [upd_apply, MPc.isIn, MPc.over, Outer.fin]
  | take a =>
    have := hi.q.queue a
    have := fun m => (hi.ok m).early
    have := fun m => (hi.ok m).remote
    obtain ⟨e1, e2, e3, e4, e5, e6, e7, e8, e9, e10, e11, e12, e13, e14, e15, e16⟩ := he
    ct_cases hs <;> constructor <;> grind [upd_apply, MPc.isIn, MPc.over, Outer.fin]
  | _ =>
    obtain ⟨e1, e2, e3, e4, e5, e6, e7, e8, e9, e10, e11, e12, e13, e14, e15, e16⟩ := he
    ct_cases hs <;> constructor <;> grind [upd_apply, MPc.isIn, MPc.over, Outer.fin]

theorem invE_run {h : List Ev} {s : State} (hr : sys.Run h s) : InvE h s :=
  hr.invariant (P := InvE) (by constructor <;> simp [sys, init, noOp, MPc.over, Outer.fin])
    fun _ _ _ _ _ hr hi hs => invE_step (inv_run hr) hi hs

/-- The calls and sends below `c` that were made with the group of their parents. -/
inductive STree (s : State) (c : Nat) : Nat → Prop
  | top : STree s c c
  | child {m d : Nat} : STree s c m → d < s.n → (s.op d).thr = .hnd m → (s.op d).grp = (s.op m).grp →
    STree s c d

theorem STree.grp {s : State} {c d : Nat} (h : STree s c d) : (s.op d).grp = (s.op c).grp := by
  induction h with
  | top => rfl
  | child _ _ _ hg ih => exact hg.trans ih

/-- The fixed part of the operations. -/
def Same (s s' : State) : Prop :=
  ∀ d, d < s.n → (s'.op d).thr = (s.op d).thr ∧ (s'.op d).grp = (s.op d).grp

/-- A step keeps the fixed part, does not undo the end of a handler, and starts at most one operation:
one whose parent is still being handled. -/
theorem step_same {s s' : State} {a : Act} {evs : List Ev} (hi : Inv s) (hs : step s a = some (s', evs)) :
    Same s s' ∧ s.n ≤ s'.n ∧ (∀ d, s.n ≤ d → d < s'.n → ∀ m, (s'.op d).thr = .hnd m →
      (s.op m).mpc = .handling ∧ m < s.n) := by
  have b1 := hi.b.unused
  have q1 := hi.q.queueLt
  have q2 := hi.q.busyLt
  cases a with
  | begin t k a g w =>
    simp only [step] at hs
    split at hs
    case isFalse => cases hs
    cases hs
    refine ⟨?_, ?_, ?_⟩
    · intro d hd; simp only [upd_apply]; grind
    · simp
    · intro d hd hd' m; simp only [upd_apply]; grind [ready, noOp]
  | _ => ct_cases hs <;> refine ⟨?_, ?_, ?_⟩ <;> grind [upd_apply, Same]

/-- Once the waiters have seen the counter at zero, every message of this part of the tree is done. -/
def InvT (s : State) : Prop :=
  ∀ c, (s.op c).inner = .closed → c < s.n → ∀ d, STree s c d → (s.op d).mpc = .done ∨ (s.op d).mpc = .none ∧ (s.op d).cpc.isRet = true

theorem step_done {s s' : State} {a : Act} {evs : List Ev} (hi : Inv s) (hs : step s a = some (s', evs)) {d : Nat}
    (hd : d < s.n) (h : (s.op d).mpc = .done ∨ (s.op d).mpc = .none ∧ (s.op d).cpc.isRet = true) :
    (s'.op d).mpc = .done ∨ (s'.op d).mpc = .none ∧ (s'.op d).cpc.isRet = true := by
  have q1 := hi.q.queue
  have q2 := hi.q.busy
  cases a with
  | begin t k a g w =>
    simp only [step] at hs
    split at hs
    case isFalse => cases hs
    cases hs
    simp only [upd_apply]; grind
  | go c r =>
    have := (hi.ok c).early
    ct_cases hs <;> grind [upd_apply, CPc.isRet, CPc.early]
  | _ => ct_cases hs <;> grind [upd_apply, CPc.isRet]

theorem step_inner {s s' : State} {a : Act} {evs : List Ev} (hs : step s a = some (s', evs)) {c : Nat}
    (hc : c < s.n) (h : (s'.op c).inner = .closed) :
    (s.op c).inner = .closed ∨ ((s.op c).inner = .waiting ∧ s.wg (s.op c).grp = 0 ∧ s' = { s with op := upd s.op c { s.op c with inner := .closed } }) := by
  cases a with
  | begin t k a g w =>
    simp only [step] at hs
    split at hs
    case isFalse => cases hs
    cases hs
    simp only [upd_apply] at h; grind
  | inner c =>
    simp only [step] at hs
    split at hs
    case isFalse => cases hs
    cases hs
    simp only [upd_apply] at h; grind
  | _ => left; ct_cases hs <;> grind [upd_apply]

/-- An operation that has returned and whose message does not hold the group is done or was refused. -/
theorem not_hold {s : State} {d : Nat} (h : hold2 (s.op d) = false)
    (hr : (s.op d).cpc.isRet = true ∨ (s.op d).mpc.isIn = true) :
    (s.op d).mpc = .done ∨ (s.op d).mpc = .none ∧ (s.op d).cpc.isRet = true := by
  cases h1 : (s.op d).cpc <;> cases h2 : (s.op d).mpc <;> simp_all [hold2, CPc.isRet, MPc.isIn]

theorem sTree_done {s : State} (hi : Inv s) (hc : InvC s) {c : Nat} (hn : c < s.n)
    (hw : s.wg (s.op c).grp = 0) (hin : (s.op c).inner = .waiting) {d : Nat} (ht : STree s c d) :
    (s.op d).mpc = .done ∨ (s.op d).mpc = .none ∧ (s.op d).cpc.isRet = true := by
  have z := tot_zero (f := hold2) (op := s.op) (g := (s.op c).grp) (n := s.n) (by have := hc.wg (s.op c).grp; omega)
  induction ht with
  | top =>
    refine not_hold (z c hn rfl) ?_
    have h1 := (hi.ok c).readyIn
    have h2 := (hi.ok c).notReady
    have h3 := (hi.ok c).blocked
    grind [CPc.isRet]
  | @child m d ht hd hthr hg ih =>
    refine not_hold (z d hd (hg.trans ht.grp)) ?_
    left
    have h1 := hi.h.hnd d m hd hthr
    have h2 := hi.h.hndOver d m hd hthr
    grind [MPc.over]

theorem sTree_back {s s' : State} {a : Act} {evs : List Ev} (hi : Inv s) (hs : step s a = some (s', evs))
    {c d : Nat} (hc : c < s.n) (ht : STree s' c d)
    (hd : ∀ m, STree s c m → (s.op m).mpc ≠ .handling) : STree s c d := by
  obtain ⟨h1, h2, h3⟩ := step_same hi hs
  induction ht with
  | top => exact .top
  | @child m d ht hlt hthr hg ih =>
    by_cases hdn : d < s.n
    · have hm : m < s.n := by
        cases ih with
        | top => exact hc
        | child _ h _ _ => exact h
      exact .child ih hdn ((h1 d hdn).1 ▸ hthr) (by rw [← (h1 d hdn).2, ← (h1 m hm).2]; exact hg)
    · exact absurd (h3 d (by omega) hlt m hthr).1 (hd m ih)

theorem STree.lt {s : State} {c d : Nat} (h : STree s c d) (hc : c < s.n) : d < s.n := by
  cases h with
  | top => exact hc
  | child _ h _ _ => exact h

theorem invT_step {s s' : State} {a : Act} {evs : List Ev} (hi : Inv s) (hc : InvC s) (ht : InvT s)
    (hs : step s a = some (s', evs)) : InvT s' := by
  intro c hin hlt d htr
  obtain ⟨h1, h2, h3⟩ := step_same hi hs
  have hcn : c < s.n := by
    by_cases h : c < s.n
    · exact h
    · exfalso
      have b1 := hi.b.unused c (by omega)
      cases a with
      | begin t k a g w =>
        simp only [step] at hs
        split at hs
        case isFalse => cases hs
        cases hs
        simp only [upd_apply] at hin
        split at hin
        · cases hin
        · rw [b1] at hin; cases hin
      | _ => ct_cases hs <;> simp_all
  have all : ∀ m, STree s c m → (s.op m).mpc = .done ∨ (s.op m).mpc = .none ∧ (s.op m).cpc.isRet = true := by
    intro m hm
    rcases step_inner hs hcn hin with h | ⟨h, hw, -⟩
    · exact ht c h hcn m hm
    · exact sTree_done hi hc hcn hw h hm
  have hb := sTree_back hi hs hcn htr fun m hm => by rcases all m hm with h | ⟨h, -⟩ <;> simp [h]
  exact step_done hi hs (hb.lt hcn) (all d hb)

theorem invT_run {h : List Ev} {s : State} (hr : sys.Run h s) : InvT s :=
  hr.invariant (P := fun _ s => InvT s) (by intro c h; cases h)
    fun _ _ _ _ _ hr hi hs => invT_step (inv_run hr) (invC_run hr) hi hs

end Braid.CallTree
