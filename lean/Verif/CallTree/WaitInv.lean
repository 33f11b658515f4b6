import Verif.CallTree.Props
import Verif.CallTree.WaitSpec

/-
More invariants of the model of call trees.
-/
namespace Braid.CallTree

/-- What else holds of mailboxes, waiters and the history. -/
structure InvL (h : List Ev) (s : State) : Prop where
  queued : ∀ c, (s.op c).mpc = .queued → c ∈ s.queue (s.op c).act
  busy : ∀ c, (s.op c).mpc = .handling ∨ (s.op c).mpc = .rel1 ∨ (s.op c).mpc = .rel2 → s.busy (s.op c).act = some c
  wait : ∀ c, (s.op c).cpc = .wait → (s.op c).ready = true
  outer : ∀ c, (s.op c).root = true → (s.op c).outer ≠ .off
  inner : ∀ c, (s.op c).outer = .sel → (s.op c).inner ≠ .off
  run : ∀ r, s.rpc r = .running → ∃ d, s.cur (.acc r) = some d
  begun : ∀ c, c < s.n → .begin c (s.op c).thr (s.op c).kind (s.op c).grp ∈ h
  acc : ∀ c, (s.op c).mpc.isIn = true → .accepted c ∈ h
  ret : ∀ c, c < s.n → (s.op c).cpc.isRet = true → ∃ ok e, .ret c ok e ∈ h
  root : ∀ c, (s.op c).root = true → .root c ∈ h
  accLt : ∀ d r, d < s.n → (s.op d).thr = .acc r → r < d

set_option maxHeartbeats 1000000 in
theorem invL_step {h : List Ev} {s s' : State} {a : Act} {evs : List Ev} (hi : Inv s) (hl : InvL h s)
    (hs : step s a = some (s', evs)) : InvL (h ++ evs) s' := by
  obtain ⟨l1, l2, l3, l4, l5, l6, l7, l8, l9, l10, l11⟩ := hl
  cases a with
  | begin t k a g w =>
    have b1 := hi.b.unused
    have b2 := hi.b.accLt
    simp only [step] at hs
    split at hs
    case isFalse => cases hs
    rename_i hc
    cases hs
    constructor <;> grind [upd_apply, ready, startRpc_apply, noOp, CPc.isRet, MPc.isIn]
  | go c r =>
    have e1 := (hi.ok c).early
    have e2 := (hi.b.curThr)
    have e3 := (hi.b.curOf c)
    ct_cases hs <;> constructor <;> grind [upd_apply, endRpc_apply, CPc.isRet, CPc.early, MPc.isIn]
  | expire c =>
    have e3 := (hi.b.curOf c)
    ct_cases hs <;> constructor <;> grind [upd_apply, endRpc_apply, CPc.isRet, CPc.early, MPc.isIn]
  | outer c b =>
    ct_cases hs <;> constructor <;> grind [upd_apply, CPc.isRet, MPc.isIn]
  | inner c =>
    ct_cases hs <;> constructor <;> grind [upd_apply, CPc.isRet, MPc.isIn]
  | take a =>
    have q1 := hi.q.queue a
    have q2 := hi.q.queueAct a
    have q3 := hi.q.busyAct a
    have q4 := hi.q.nodup a
    ct_cases hs <;> constructor <;> grind [upd_apply, CPc.isRet, MPc.isIn]
  | finish a =>
    have q3 := hi.q.busyAct a
    ct_cases hs <;> constructor <;> grind [upd_apply, CPc.isRet, MPc.isIn]
  | release a =>
    have q3 := hi.q.busyAct a
    ct_cases hs <;> constructor <;> grind [upd_apply, CPc.isRet, MPc.isIn]
  | setErr w => ct_cases hs; constructor <;> grind

theorem invL_run {h : List Ev} {s : State} (hr : sys.Run h s) : InvL h s :=
  hr.invariant (P := InvL) (by constructor <;> simp [sys, init, noOp, MPc.isIn])
    fun _ _ _ _ _ hr hi hs => invL_step (inv_run hr) hi hs

end Braid.CallTree
