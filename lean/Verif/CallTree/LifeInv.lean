import Verif.CallTree.Life
import Verif.CallTree.WaitProps

/-
Invariants of calls with actors that end.
-/
namespace Braid.CallTree
open Spec



/-- A step is a step of the calls, or an actor is shut or ends. -/
theorem life_base {s s' : Life} {a : LifeAct} {evs : List Ev} (hs : lifeStep s a = some (s', evs)) :
    (∃ b, a = .op b ∧ step s.base b = some (s'.base, evs) ∧ s'.shut = s.shut ∧ s'.dead = s.dead) ∨
      ((∀ b, a ≠ .op b) ∧ evs = [] ∧ s'.base = s.base ∧ (∀ x, s.dead x = true → s'.dead x = true) ∧
        ∀ x, s'.dead x = true → s.dead x = true ∨ s.base.busy x = none) := by
  have key : ∀ b, (step s.base b).map (fun r => (({ s with base := r.1 } : Life), r.2)) = some (s', evs) →
      step s.base b = some (s'.base, evs) ∧ s'.shut = s.shut ∧ s'.dead = s.dead := by
    intro b h
    rw [Option.map_eq_some_iff] at h
    obtain ⟨⟨t, e⟩, h1, h2⟩ := h
    cases h2
    exact ⟨h1, rfl, rfl⟩
  rcases a with b | x | x
  · left
    refine ⟨b, rfl, ?_⟩
    cases b
    case go c r =>
      simp only [lifeStep] at hs
      split at hs
      · cases hs
      · exact key _ hs
    case take a =>
      simp only [lifeStep] at hs
      split at hs
      · cases hs
      · exact key _ hs
    all_goals exact key _ hs
  · right
    simp only [lifeStep, Option.some.injEq, Prod.mk.injEq] at hs
    obtain ⟨rfl, rfl⟩ := hs
    exact ⟨by simp, rfl, rfl, fun x h => h, fun x h => .inl h⟩
  · right
    simp only [lifeStep] at hs
    split at hs
    · simp only [Option.some.injEq, Prod.mk.injEq] at hs
      obtain ⟨rfl, rfl⟩ := hs
      exact ⟨by simp, rfl, rfl, fun y h => by dsimp only; grind [upd_apply], fun y h => by dsimp only at h; grind [upd_apply]⟩
    · cases hs

theorem life_run {h : List Ev} {s : Life} (hr : lifeSys.Run h s) : sys.Run h s.base :=
  Lts.Run.invariant (M := lifeSys) (P := fun h s => sys.Run h s.base) .init
    (fun h s a s' evs _ hi hs => by
      rcases life_base hs with ⟨b, -, h1, -, -⟩ | ⟨-, rfl, h1, -, -⟩
      · exact hi.step h1
      · rw [List.append_nil, h1]; exact hi) hr

/-- An actor that is not at a message is at one only after it has taken one. -/
theorem busy_none {s s' : State} {b : Act} {evs : List Ev} {a : Nat} (hs : step s b = some (s', evs)) (hn : s.busy a = none)
    (hb : b ≠ .take a) : s'.busy a = none := by
  cases b with
  | begin t k x g w =>
    simp only [step] at hs
    split at hs
    · cases hs; exact hn
    · cases hs
  | _ => ct_cases hs <;> grind [upd_apply]

theorem life_take {s s' : Life} {a : Nat} {evs : List Ev} (hs : lifeStep s (.op (.take a)) = some (s', evs)) :
    s.dead a = false := by
  simp only [lifeStep] at hs
  split at hs
  · cases hs
  · rename_i hd; exact Bool.eq_false_iff.2 hd

/-- A dead actor is not at a message. -/
theorem dead_busy {h : List Ev} {s : Life} (hr : lifeSys.Run h s) : ∀ a, s.dead a = true → s.base.busy a = none :=
  Lts.Run.invariant (M := lifeSys) (P := fun _ s => ∀ a, s.dead a = true → s.base.busy a = none) (by intro a h; cases h)
    (fun h s a s' evs hr hi hs => by
      rcases life_base (show lifeStep s a = some (s', evs) from hs) with ⟨b, rfl, h1, -, h3⟩ | ⟨-, -, h1, -, h2⟩
      · intro a ha
        rw [h3] at ha
        refine busy_none h1 (hi a ha) ?_
        rintro rfl
        have := life_take hs
        rw [ha] at this
        cases this
      · intro y hy
        rw [h1]
        exact (h2 y hy).elim (hi y) fun h => h) hr

/-- Once a root call has returned its waiter may go on. -/
theorem ret_ready {h : List Ev} {s : State} (hr : sys.Run h s) :
    ∀ c, (s.op c).root = true → (s.op c).cpc.isRet = true → (s.op c).ready = true :=
  hr.invariant (P := fun _ s => ∀ c, (s.op c).root = true → (s.op c).cpc.isRet = true → (s.op c).ready = true)
    (by simp [sys, init, noOp])
    fun h s a s' evs hr hi hs => by
      have hl := invL_run hr
      have hv := inv_run hr
      intro d
      have h1 := hi d
      have h2 := hl.wait d
      have h3 := (hv.ok d).rpc
      have h4 := (hv.ok d).remote
      change step s a = _ at hs
      cases a with
      | begin t k x g w =>
        simp only [step] at hs
        split at hs
        · cases hs
          dsimp only
          grind [upd_apply, CPc.isRet]
        · cases hs
      | _ => ct_cases hs <;> grind [upd_apply, CPc.isRet]

/-- The group waiter starts when the waiter goes on. -/
theorem inner_on {h : List Ev} {s : State} (hr : sys.Run h s) :
    ∀ c, (s.op c).outer.early = false → (s.op c).inner ≠ .off :=
  hr.invariant (P := fun _ s => ∀ c, (s.op c).outer.early = false → (s.op c).inner ≠ .off)
    (by simp [sys, init, noOp, Outer.early])
    fun h s a s' evs hr hi hs => by
      intro d
      have h1 := hi d
      change step s a = _ at hs
      cases a with
      | begin t k x g w =>
        simp only [step] at hs
        split at hs
        · cases hs
          dsimp only
          grind [upd_apply, Outer.early]
        · cases hs
      | _ => ct_cases hs <;> grind [upd_apply, Outer.early]

/-- The group waiter of a call has ended only when the message of the call was handled or refused. -/
theorem closed_done {h : List Ev} {s : State} (hr : sys.Run h s) :
    ∀ c, (s.op c).inner = .closed → (s.op c).mpc = .done ∨ (s.op c).mpc = .none ∧ (s.op c).cpc = .returned false :=
  hr.invariant (P := fun _ s => ∀ c, (s.op c).inner = .closed →
      (s.op c).mpc = .done ∨ (s.op c).mpc = .none ∧ (s.op c).cpc = .returned false)
    (by simp [sys, init, noOp])
    fun h s a s' evs hr hi hs => by
      have hv := inv_run hr
      have hc := invC_run hr
      intro d
      have h1 := hi d
      have h2 := (hv.ok d).readyIn
      have h3 := (hv.ok d).blocked
      have h4 := (hv.ok d).notReady
      have h5 := (hv.ok d).early
      change step s a = _ at hs
      cases a with
      | begin t k x g w =>
        simp only [step] at hs
        split at hs
        · cases hs
          dsimp only
          grind [upd_apply, CPc.isRet]
        · cases hs
      | inner c =>
        simp only [step] at hs
        split at hs
        · rename_i hw
          cases hs
          dsimp only
          by_cases hdc : d = c
          · subst hdc
            intro _
            simp only [upd_same]
            have h6 := hc.wg (s.op d).grp
            rw [hw.2.2] at h6
            have h6 : tot hold2 s.op (s.op d).grp s.n = 0 := by omega
            have h7 := tot_zero h6 d hw.1 rfl
            have h8 : (s.op d).ready = true := by
              cases hrd : (s.op d).ready with
              | true => rfl
              | false => have := h3 (h4 hrd); rw [hw.2.1] at this; cases this
            rcases h2 h8 with h9 | h9
            · left
              cases hm : (s.op d).mpc <;> rw [hm] at h9 <;> first | rfl | (cases h9; done) |
                (exfalso; cases hp : (s.op d).cpc <;> simp [hold2, hm, hp] at h7)
            · cases hm : (s.op d).mpc <;> first | exact .inl rfl | exact .inr ⟨rfl, h9⟩ | simp [hold2, hm, h9] at h7
          · simp only [upd_of_ne _ _ hdc]; exact h1
        · cases hs
      | take a =>
        have q1 := hv.q.queue a
        ct_cases hs <;> grind [upd_apply, CPc.isRet]
      | release a =>
        have q1 := hv.q.busy a
        ct_cases hs <;> grind [upd_apply, CPc.isRet]
      | finish a =>
        ct_cases hs <;> grind [upd_apply, CPc.isRet]
      | _ => ct_cases hs <;> grind [upd_apply, CPc.isRet, CPc.early]

/-! ### When nothing moves -/

theorem quiet_step {s : Life} (hq : Quiet s) {b : Act} (hb : moves (.op b) = true) (hg : ∀ c r, b ≠ .go c r)
    (ht : ∀ a, b ≠ .take a) : step s.base b = none := by
  have h := hq (.op b) hb
  cases b <;> first | exact absurd rfl (hg _ _) | exact absurd rfl (ht _) | simpa [lifeStep] using h

theorem quiet_go {s : Life} (hq : Quiet s) {c : Nat} (hn : c < s.base.n) : stepGo s.base c true = none := by
  have h := hq (.op (.go c true)) rfl
  simpa [lifeStep, step, hn] using h

theorem quiet_outer {s : Life} (hq : Quiet s) {c : Nat} (hn : c < s.base.n) (b : Bool) : stepOuter s.base c b = none := by
  have h := quiet_step hq (b := .outer c b) (by cases b <;> rfl) (by simp) (by simp)
  simpa [step, hn] using h

/-- Every operation has returned. -/
theorem quiet_ret {h : List Ev} {s : Life} (hr : lifeSys.Run h s) (hq : Quiet s) : ∀ (k c : Nat), s.base.n ≤ c + k →
    c < s.base.n → (s.base.op c).cpc.isRet = true
  | 0, c, h1, h2 => by omega
  | k + 1, c, h1, hn => by
    have hb := life_run hr
    have hi := inv_run hb
    have hl := invL_run hb
    have hgo := quiet_go hq hn
    cases hp : (s.base.op c).cpc with
    | returned ok => rfl
    | recv => simp [stepGo, hp] at hgo
    | add1 => simp [stepGo, hp] at hgo
    | add2 => simp [stepGo, hp] at hgo
    | push =>
      simp only [stepGo, hp] at hgo
      split at hgo <;> cases hgo
    | ready => simp [stepGo, hp] at hgo
    | wait =>
      exfalso
      have h3 := (hi.ok c).late (by rw [hp]; rfl)
      have h4 := hl.wait c hp
      have h5 := hl.outer c h3.2
      have h6 := quiet_outer hq hn true
      cases ho : (s.base.op c).outer with
      | off => exact h5 ho
      | blocked => simp [stepOuter, ho, h4] at h6
      | sel => simp [stepOuter, ho] at h6
      | close => simp [stepOuter, ho] at h6
      | ended => simp [stepGo, hp, ho] at hgo
    | rpc =>
      exfalso
      cases hc : s.base.rpc c with
      | answered => simp [stepGo, hp, hc] at hgo
      | running =>
        obtain ⟨d, h3⟩ := hl.run c hc
        have h4 := hi.b.curLt _ _ h3
        have h5 := hl.accLt d c h4 (hi.b.curThr _ _ h3)
        have h6 := quiet_ret hr hq k d (by omega) h4
        rw [hi.b.curRet _ _ h3] at h6
        cases h6
      | idle =>
        have h3 : s.base.cur (.acc c) = none := by
          cases h4 : s.base.cur (.acc c) with
          | none => rfl
          | some d => exact absurd hc (hi.h.acc d c (hi.b.curLt _ _ h4) (hi.b.curThr _ _ h4))
        have h4 := quiet_step hq (b := .begin (.acc c) .call 0 0 0) rfl (by simp) (by simp)
        simp [step, h3, ready, hp, hc] at h4

theorem quiet_cur {h : List Ev} {s : Life} (hr : lifeSys.Run h s) (hq : Quiet s) (t : Thr) : s.base.cur t = none := by
  have hi := inv_run (life_run hr)
  cases hc : s.base.cur t with
  | none => rfl
  | some d =>
    have h1 := quiet_ret hr hq _ d (Nat.le_add_left _ _) (hi.b.curLt _ _ hc)
    rw [hi.b.curRet _ _ hc] at h1
    cases h1

/-- No actor is at a message. -/
theorem quiet_busy {h : List Ev} {s : Life} (hr : lifeSys.Run h s) (hq : Quiet s) (a : Nat) : s.base.busy a = none := by
  have hi := inv_run (life_run hr)
  cases hb : s.base.busy a with
  | none => rfl
  | some m =>
    exfalso
    have h1 := quiet_step hq (b := .finish a) rfl (by simp) (by simp)
    have h2 := quiet_step hq (b := .release a) rfl (by simp) (by simp)
    have h3 := quiet_cur hr hq (.hnd m)
    simp only [step, hb] at h1 h2
    rcases hi.q.busy a m hb with h4 | h4 | h4
    · simp [h3, h4] at h1
    · simp [h4] at h2
    · simp [h4] at h2

/-- Messages are left only in the mailboxes of actors that have ended. -/
theorem quiet_queue {h : List Ev} {s : Life} (hr : lifeSys.Run h s) (hq : Quiet s) {a e : Nat}
    (he : e ∈ s.base.queue a) : s.dead a = true := by
  cases hd : s.dead a with
  | true => rfl
  | false =>
    exfalso
    have h1 := hq (.op (.take a)) rfl
    have h2 := quiet_busy hr hq a
    cases h3 : s.base.queue a with
    | nil => rw [h3] at he; cases he
    | cons m r => simp [lifeStep, step, hd, h2, h3] at h1

/-- A message that counts for a group is in the mailbox of an actor that has ended. -/
theorem quiet_hold {h : List Ev} {s : Life} (hr : lifeSys.Run h s) (hq : Quiet s) {e : Nat} (hn : e < s.base.n)
    (he : hold2 (s.base.op e) = true) :
    e ∈ s.base.queue (s.base.op e).act ∧ s.dead (s.base.op e).act = true := by
  have hb := life_run hr
  have hl := invL_run hb
  have h1 := quiet_ret hr hq _ e (Nat.le_add_left _ _) hn
  have h2 := quiet_busy hr hq (s.base.op e).act
  have h3 := hl.busy e
  have h4 : (s.base.op e).mpc = .queued := by
    cases hp : (s.base.op e).cpc <;> rw [hp] at h1 <;> first | (cases h1; done) | skip
    cases hm : (s.base.op e).mpc <;> simp_all [hold2]
  have h5 := hl.queued e h4
  exact ⟨h5, quiet_queue hr hq h5⟩

/-! ### What stays -/

theorem queue_mem {s s' : State} {b : Act} {evs : List Ev} {a e : Nat} (hs : step s b = some (s', evs))
    (he : e ∈ s.queue a) (hb : b ≠ .take a) : e ∈ s'.queue a := by
  cases b with
  | begin t k x g w =>
    simp only [step] at hs
    split at hs
    · cases hs; exact he
    · cases hs
  | _ => ct_cases hs <;> grind [upd_apply]

theorem grp_same {s s' : State} {b : Act} {evs : List Ev} {c : Nat} (hs : step s b = some (s', evs)) (hc : c < s.n) :
    c < s'.n ∧ (s'.op c).grp = (s.op c).grp := by
  cases b with
  | begin t k x g w =>
    simp only [step] at hs
    split at hs
    · cases hs
      refine ⟨by dsimp only; omega, ?_⟩
      dsimp only
      rw [upd_of_ne _ _ (by omega)]
    · cases hs
  | _ => ct_cases hs <;> grind [upd_apply]

theorem inner_waiting {s s' : State} {b : Act} {evs : List Ev} {c : Nat} (hs : step s b = some (s', evs)) (hc : c < s.n)
    (hi : (s.op c).inner = .waiting) (hw : s.wg (s.op c).grp ≠ 0) : (s'.op c).inner = .waiting := by
  cases b with
  | begin t k x g w =>
    simp only [step] at hs
    split at hs
    · cases hs
      dsimp only
      rw [upd_of_ne _ _ (by omega)]; exact hi
    · cases hs
  | _ => ct_cases hs <;> grind [upd_apply]

theorem wg_pos {h : List Ev} {s : State} (hr : sys.Run h s) {a e g : Nat} (he : e ∈ s.queue a) (hg : (s.op e).grp = g) :
    s.wg g ≠ 0 := by
  have hi := inv_run hr
  have h1 := hi.q.queue a e he
  have h2 : hold2 (s.op e) = true := hold2_open (by rw [h1]; rfl)
  intro h3
  have h4 := (invC_run hr).wg g
  have h5 : tot hold2 s.op g s.n = 0 := by omega
  have h6 := tot_zero h5 e (hi.q.queueLt a e he) hg
  rw [h2] at h6
  cases h6

theorem stranded_step {h : List Ev} {s s' : Life} {a : LifeAct} {evs : List Ev} (hr : lifeSys.Run h s)
    (hs : lifeStep s a = some (s', evs)) {c : Nat} (hg : GroupWaiter s c) (ht : Stranded s c) :
    GroupWaiter s' c ∧ Stranded s' c := by
  obtain ⟨hn, hw⟩ := hg
  obtain ⟨e, x, h1, h2, h3⟩ := ht
  have hb := life_run hr
  have hen := (inv_run hb).q.queueLt x e h1
  rcases life_base hs with ⟨b, rfl, h4, -, h5⟩ | ⟨-, -, h4, h5, -⟩
  · have h6 : b ≠ .take x := by
      rintro rfl
      have := life_take hs
      rw [h2] at this
      cases this
    have h7 := grp_same h4 hn
    have h8 := grp_same h4 hen
    exact ⟨⟨h7.1, inner_waiting h4 hn hw (wg_pos hb h1 h3)⟩, e, x, queue_mem h4 h1 h6, by rw [h5]; exact h2,
      by rw [h7.2, h8.2]; exact h3⟩
  · rw [GroupWaiter, Stranded, h4]
    exact ⟨⟨hn, hw⟩, e, x, h1, h5 x h2, h3⟩

end Braid.CallTree
