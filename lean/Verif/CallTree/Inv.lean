import Verif.CallTree.Spec

/-
Invariants of the model of call trees.
-/
namespace Braid.CallTree
open Spec

/-- Takes a step apart. -/
macro "ct_cases " h:ident : tactic => `(tactic| (
  simp only [step, stepGo, stepOuter, ret] at $h:ident
  repeat' split at $h:ident
  all_goals (try cases $h:ident)))

/-- The message has been put into a mailbox. -/
def MPc.isIn : MPc → Bool
  | .none => false
  | _ => true

/-- The handler of the message has ended. -/
def MPc.over : MPc → Bool
  | .rel1 | .rel2 | .done => true
  | _ => false

def CPc.isRet : CPc → Bool
  | .returned _ => true
  | _ => false

theorem startRpc_apply (rpc : Nat → Rpc) (t : Thr) (r : Nat) :
    startRpc rpc t r = if t = .acc r then .running else rpc r := by
  cases t <;> simp [startRpc, upd_apply, eq_comm]

theorem endRpc_apply (rpc : Nat → Rpc) (t : Thr) (r : Nat) :
    endRpc rpc t r = if t = .acc r then .answered else rpc r := by
  cases t <;> simp [endRpc, upd_apply, eq_comm]

def CPc.early : CPc → Bool
  | .recv | .add1 | .add2 | .push => true
  | _ => false

def CPc.late : CPc → Bool
  | .ready | .wait => true
  | _ => false

def Outer.early : Outer → Bool
  | .off | .blocked => true
  | _ => false

/-- Which phases of an operation go together. -/
structure OpOk (x : Op) : Prop where
  early : x.cpc.early = true → x.mpc = .none ∧ x.kind ≠ .remote ∧ x.ready = false
  rpc : x.cpc = .rpc → x.kind = .remote
  remote : x.kind = .remote → x.mpc = .none ∧ x.root = false
  late : x.cpc.late = true → x.mpc.isIn = true ∧ x.root = true
  unready : x.cpc = .ready → x.ready = false
  retOk : x.cpc = .returned true → x.kind ≠ .remote → x.mpc.isIn = true
  retRoot : x.cpc = .returned true → x.root = true → x.outer = .ended
  notReady : x.ready = false → x.outer.early = true
  blocked : x.outer.early = true → x.inner = .off
  readyIn : x.ready = true → x.mpc.isIn = true ∨ x.cpc = .returned false
  notRoot : x.root = false → x.outer = .off

/-- The operations of the goroutines. -/
structure InvB (s : State) : Prop where
  unused : ∀ c, s.n ≤ c → s.op c = noOp
  unusedR : ∀ c, s.n ≤ c → s.rpc c = .idle
  curLt : ∀ t c, s.cur t = some c → c < s.n
  curThr : ∀ t c, s.cur t = some c → (s.op c).thr = t
  curRet : ∀ t c, s.cur t = some c → (s.op c).cpc.isRet = false
  curOf : ∀ c, c < s.n → (s.op c).cpc.isRet = false → s.cur (s.op c).thr = some c
  accLt : ∀ d r, (s.op d).thr = .acc r → r < s.n

/-- The mailboxes. -/
structure InvQ (s : State) : Prop where
  queueLt : ∀ a c, c ∈ s.queue a → c < s.n
  queue : ∀ a c, c ∈ s.queue a → (s.op c).mpc = .queued
  queueAct : ∀ a c, c ∈ s.queue a → (s.op c).act = a
  nodup : ∀ a, (s.queue a).Nodup
  busyLt : ∀ a c, s.busy a = some c → c < s.n
  busyAct : ∀ a c, s.busy a = some c → (s.op c).act = a
  busy : ∀ a c, s.busy a = some c → (s.op c).mpc = .handling ∨ (s.op c).mpc = .rel1 ∨ (s.op c).mpc = .rel2

/-- Parents and children. -/
structure InvH (s : State) : Prop where
  hnd : ∀ d m, d < s.n → (s.op d).thr = .hnd m → (s.op m).mpc = .handling ∨ (s.op m).mpc.over = true
  hndOver : ∀ d m, d < s.n → (s.op d).thr = .hnd m → (s.op m).mpc.over = true → (s.op d).cpc.isRet = true
  acc : ∀ d r, d < s.n → (s.op d).thr = .acc r → s.rpc r ≠ .idle
  accEnd : ∀ d r, d < s.n → (s.op d).thr = .acc r → s.rpc r = .answered → (s.op d).cpc.isRet = true
  retRpc : ∀ r, (s.op r).cpc = .returned true → (s.op r).kind = .remote → s.rpc r = .answered

theorem opOk_step {s s' : State} {a : Act} {evs : List Ev} (hq : InvQ s)
    (hi : ∀ c, OpOk (s.op c)) (hs : step s a = some (s', evs)) : ∀ c, OpOk (s'.op c) := by
  intro d
  have hd := hi d
  cases a with
  | begin t k a g w =>
    simp only [step] at hs
    split at hs
    case isFalse => cases hs
    rename_i hc
    cases hs
    simp only [upd_apply]
    split
    · constructor <;> grind [CPc.early, CPc.late, Outer.early]
    · exact hd
  | go c r =>
    ct_cases hs <;> simp only [upd_apply] <;> split <;> try exact hd
    all_goals obtain ⟨i1, i2, i3, i4, i5, i6, i7, i8, i9, i10, i11⟩ := hd
    all_goals constructor <;> grind [CPc.early, CPc.late, Outer.early, MPc.isIn]
  | take a =>
    have := hq.queue a
    ct_cases hs
    simp only [upd_apply]
    split
    · obtain ⟨i1, i2, i3, i4, i5, i6, i7, i8, i9, i10, i11⟩ := hd
      constructor <;> grind [MPc.isIn]
    · exact hd
  | setErr w => ct_cases hs; exact hd
  | _ =>
    ct_cases hs <;> simp only [upd_apply] <;> split <;> try exact hd
    all_goals obtain ⟨i1, i2, i3, i4, i5, i6, i7, i8, i9, i10, i11⟩ := hd
    all_goals constructor <;> grind [CPc.early, CPc.late, Outer.early, MPc.isIn]

theorem invB_step {s s' : State} {a : Act} {evs : List Ev} (hi : InvB s)
    (hq : InvQ s) (hs : step s a = some (s', evs)) : InvB s' := by
  obtain ⟨i1, i2, i3, i4, i5, i6, i7⟩ := hi
  have q1 := hq.queueLt
  have q2 := hq.busyLt
  cases a with
  | begin t k a g w =>
    simp only [step] at hs
    split at hs
    case isFalse => cases hs
    rename_i hc
    cases hs
    constructor <;> grind [upd_apply, ready, startRpc_apply, noOp, CPc.isRet]
  | _ =>
    ct_cases hs <;> constructor <;> grind [upd_apply, endRpc_apply, noOp, CPc.isRet]

theorem invQ_step {s s' : State} {a : Act} {evs : List Ev} (ha : ∀ c, OpOk (s.op c)) (hb : InvB s)
    (hi : InvQ s) (hs : step s a = some (s', evs)) : InvQ s' := by
  obtain ⟨i1, i2, i3, i4, i5, i6, i7⟩ := hi
  have b1 := hb.unused
  cases a with
  | begin t k a g w =>
    simp only [step] at hs
    split at hs
    case isFalse => cases hs
    rename_i hc
    cases hs
    constructor <;> grind [upd_apply, noOp]
  | go c r =>
    have := (ha c).early
    ct_cases hs <;> constructor <;> grind [upd_apply, CPc.early]
  | _ =>
    ct_cases hs <;> constructor <;> grind [upd_apply]

set_option maxHeartbeats 1000000 in
theorem invH_step {s s' : State} {a : Act} {evs : List Ev} (ha : ∀ c, OpOk (s.op c)) (hb : InvB s)
    (hq : InvQ s) (hi : InvH s) (hs : step s a = some (s', evs)) : InvH s' := by
  obtain ⟨i1, i2, i3, i4, i5⟩ := hi
  obtain ⟨b1, b2, b3, b4, b5, b6, b7⟩ := hb
  have q1 := hq.queue
  cases a with
  | begin t k a g w =>
    simp only [step] at hs
    split at hs
    case isFalse => cases hs
    rename_i hc
    cases hs
    constructor <;> grind [upd_apply, ready, startRpc_apply, noOp, CPc.isRet, MPc.over]
  | go c r =>
    have := (ha c).early
    have := (ha c).late
    have := (ha c).rpc
    have := (ha c).remote
    ct_cases hs <;> constructor <;> grind [upd_apply, endRpc_apply, CPc.isRet, CPc.early, CPc.late, MPc.over]
  | _ =>
    ct_cases hs <;> constructor <;> grind [upd_apply, endRpc_apply, CPc.isRet, MPc.over]

structure Inv (s : State) : Prop where
  ok : ∀ c, OpOk (s.op c)
  b : InvB s
  q : InvQ s
  h : InvH s

theorem inv_run {h : List Ev} {s : State} (hr : sys.Run h s) : Inv s := by
  refine hr.invariant (P := fun _ s => Inv s) ?_ ?_
  · refine ⟨fun c => ?_, ?_, ?_, ?_⟩ <;> constructor <;> simp [sys, init, noOp, CPc.isRet, CPc.early, CPc.late, Outer.early]
  · intro h s a s' evs _ ⟨i1, i2, i3, i4⟩ hs
    exact ⟨opOk_step i3 i1 hs, invB_step i2 i3 hs, invQ_step i1 i2 i3 hs, invH_step i1 i2 i3 i4 hs⟩

end Braid.CallTree
