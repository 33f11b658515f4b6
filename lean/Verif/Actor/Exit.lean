import Verif.Actor.Rest
import Verif.Actor.ExitSpec

/-
The steps of an actor that is told to exit (helper lemmas).
-/
namespace Braid.Actor
open Spec
open Mpsc (pot invIds popped)

/-- Steps to come of `checkClose`, once the shutdown signal is given. -/
def kp : CkPc → Nat
  | .off => 4
  | .testQ => 3
  | .testR => 3
  | .wait => 3
  | .cas _ => 2
  | .close => 1
  | .finished => 0

/-- Steps to come of the loop at its end. -/
def ep : LPc → Nat
  | .stopped => 0
  | _ => 1

/-- Steps to come of a caller of `Exit`. -/
def wp : EPc → Nat
  | .waiting => 1
  | _ => 0

def clo (N : Nat) (s : State) : Nat :=
  (if s.shutdownCh then kp s.chk + ep s.loop else 0) + total (fun x => wp (s.ext x)) N

def extLt (N : Nat) : Act → Prop
  | .exit x => x < N
  | .exitWait x => x < N
  | _ => True

theorem clo_plain {self : String} {s s' : State} {a : Act} {evs : List Ev} {N : Nat} (hpl : plain a)
    (hs : step self s a = some (s', evs)) : clo N s' = clo N s := by
  cases a with
  | select c => cases c <;> first | (exact hpl.elim) | (step_cases hs <;> simp_all [clo, ep])
  | check t => cases hpl
  | exit x => cases hpl
  | exitWait x => cases hpl
  | _ => step_cases hs <;> simp_all [clo, ep]

theorem phi_chk {N : Nat} (s : State) (c : CkPc) (k : Nat) (cl : Bool) :
    phi N { s with chk := c, closed := k, closeCh := cl } = phi N s := rfl

/-- The accounting of one step. -/
def Pays (N : Nat) (s s' : State) (evs : List Ev) (c d : Nat) : Prop :=
  c + phi N s' + clo N s' + 8 * (invIds (evs.filterMap projQ)).length + 7 * (invIds (evs.filterMap projR)).length +
      6 * s.mb.cons.inflight.length + 6 * s.rq.cons.inflight.length ≤
    phi N s + clo N s + d + 6 * s'.mb.cons.inflight.length + 6 * s'.rq.cons.inflight.length +
      8 * (popped (evs.filterMap projQ)).length + 7 * (popped (evs.filterMap projR)).length

theorem pays_step {self : String} {h : List Ev} {s s' : State} {a : Act} {evs : List Ev} {N : Nat} (hr : (sys self).Run h s)
    (hsd : s.closed ≠ 0 → s.shutdownCh = true)
    (hN : isExit a = true ∨ actLt N a) (hE : extLt N a) (hs : step self s a = some (s', evs)) :
    Pays N s s' evs (if polls s' a evs then 0 else 1)
      (19 * (if outside a then 1 else 0) + 7 * (if isExit a then 1 else 0)) := by
  rcases Classical.em (plain a) with hpl | hpl
  · have h0 : isExit a = false := by cases a <;> first | rfl | cases hpl
    have h1 : polls s' a evs = false := by
      cases a with
      | select c => cases c <;> first | rfl | exact hpl.elim
      | check t => cases hpl
      | _ => rfl
    have hN : actLt N a := by rcases hN with hN | hN; · rw [h0] at hN; cases hN
                              · exact hN
    have h2 := phi_step0 hr hpl hN hs
    have h3 := clo_plain (N := N) hpl hs
    unfold Pays
    rw [h0, h1, h3]
    simp
    omega
  · have k := invK_run hr
    obtain ⟨i1, i2, i3, i4, i5, i6, i7, i8, i9, i10, i11⟩ := k
    cases a with
    | select c =>
      cases c <;> first | (exact absurd trivial hpl) | skip
      · step_cases hs
        · simp_all [Pays, polls, outside, isExit, invIds, popped, projQ, projR, List.filterMap_cons, clo, kp, phi]; omega
        · simp [Pays, polls, outside, isExit, invIds, popped]
      · step_cases hs
        have := i5 ‹_›
        have h2 : s.shutdownCh = true := hsd (by have := i8 (.inr this); omega)
        simp_all [Pays, polls, outside, isExit, invIds, popped, projQ, projR, List.filterMap_cons, clo, kp, phi, ep, lp]
        omega
    | check t =>
      have h2 : s.chk ≠ .off → s.shutdownCh = true := fun h => hsd (fun hh => h (i1.2 hh))
      step_cases hs <;> simp_all [Pays, polls, outside, isExit, invIds, popped, projQ, projR, List.filterMap_cons, clo, kp, phi] <;> omega
    | exit x =>
      have ht := total_upd s.ext wp x .waiting N hE
      have hc : s.shutdownCh = false → s.chk = .off := fun h => i1.2 (Classical.byContradiction fun hh => by
        rw [hsd hh] at h; cases h)
      step_cases hs
      · simp [Pays, polls, outside, isExit, invIds, popped, projQ, projR, List.filterMap_cons, clo, phi]; omega
      · have h5 : ep s.loop ≤ 1 := by cases s.loop <;> simp [ep]
        have h6 := hc (by simpa using ‹¬ s.shutdownCh = true›)
        have h7 : wp .waiting = 1 := rfl
        simp_all [Pays, polls, outside, isExit, invIds, popped, projQ, projR, List.filterMap_cons, clo, phi, kp]
        omega
    | exitWait x =>
      have ht := total_upd s.ext wp x .returned N hE
      step_cases hs
      have h7 : wp .waiting = 1 := rfl
      have h8 : wp .returned = 0 := rfl
      simp_all [Pays, polls, outside, isExit, invIds, popped, projQ, projR, List.filterMap_cons, clo, phi, kp]
      omega
    | _ => exact absurd trivial hpl

theorem shut_run {self : String} {h : List Ev} {s : State} (hr : (sys self).Run h s) :
    s.closed ≠ 0 → s.shutdownCh = true := by
  have k : s.closed ≠ 0 → s.shutdownCh = true ∧ s.closed ≠ 0 := by
    refine hr.invariant (P := fun h s => s.closed ≠ 0 → s.shutdownCh = true ∧ s.closed ≠ 0) (by simp [sys, init]) ?_
    intro h s a s' evs hr' hi hs
    have kk := invK_run hr'
    obtain ⟨i1, i2, i3, i4, i5, i6, i7, i8, i9, i10, i11⟩ := kk
    simp only [sys] at hs
    cases a <;> step_cases hs <;> simp_all
  exact fun h => (k h).1

theorem pays_exec {self : String} {N : Nat} : ∀ {as : List Act} {h : List Ev} {s s' : State} {evs : List Ev},
    (sys self).Run h s → (∀ a ∈ as, (isExit a = true ∨ actLt N a) ∧ extLt N a) → (sys self).exec s as = some (s', evs) →
    Pays N s s' evs (worked self s as) (19 * as.countP outside + 7 * as.countP isExit) := by
  intro as
  induction as with
  | nil =>
    intro h s s' evs _ _ he
    simp [Lts.exec] at he; obtain ⟨rfl, rfl⟩ := he
    simp [Pays, worked, popped, invIds]
  | cons a as ih =>
    intro h s s' evs hr hN he
    simp only [Lts.exec] at he
    split at he
    · cases he
    · rename_i s1 e1 hs
      split at he
      · cases he
      · rename_i s2 e2 he2
        simp only [Option.some.injEq, Prod.mk.injEq] at he; obtain ⟨rfl, rfl⟩ := he
        have h1 := pays_step hr (shut_run hr) (hN a (by simp)).1 (hN a (by simp)).2 hs
        have h2 := ih (hr.step hs) (fun b hb => hN b (by simp [hb])) he2
        have h3 : step self s a = some (s1, e1) := hs
        unfold Pays at *
        rw [List.filterMap_append, List.filterMap_append, Mpsc.popped_append, Mpsc.popped_append,
          Mpsc.invIds_append, Mpsc.invIds_append]
        simp only [worked, h3, List.countP_cons, List.length_append]
        generalize (if polls s1 a e1 = true then 0 else 1) = c at *
        generalize (if outside a = true then 1 else 0) = d at *
        generalize (if isExit a = true then 1 else 0) = f at *
        omega

theorem lt_exists (as : List Act) : ∃ N, ∀ a ∈ as, (isExit a = true ∨ actLt N a) ∧ extLt N a := by
  induction as with
  | nil => exact ⟨0, by simp⟩
  | cons a as ih =>
    obtain ⟨N, hN⟩ := ih
    have mono : ∀ (b : Act) {m n : Nat}, m ≤ n → (isExit b = true ∨ actLt m b) ∧ extLt m b →
        (isExit b = true ∨ actLt n b) ∧ extLt n b := by
      intro b m n hmn hb
      cases b <;> simp only [actLt, extLt, isExit] at * <;> simp_all <;> omega
    have one : ∃ M, (isExit a = true ∨ actLt M a) ∧ extLt M a := by
      cases a with
      | recv p m => exact ⟨p + 1, .inr (Nat.lt_succ_self p), trivial⟩
      | deliver p m => exact ⟨p + 1, .inr (Nat.lt_succ_self p), trivial⟩
      | send p => exact ⟨p + 1, .inr (Nat.lt_succ_self p), trivial⟩
      | rpush p r => exact ⟨p + 1, .inr (Nat.lt_succ_self p), trivial⟩
      | rsend p => exact ⟨p + 1, .inr (Nat.lt_succ_self p), trivial⟩
      | exit x => exact ⟨x + 1, .inl rfl, Nat.lt_succ_self x⟩
      | exitWait x => exact ⟨x + 1, .inr trivial, Nat.lt_succ_self x⟩
      | _ => exact ⟨0, .inr trivial, trivial⟩
    obtain ⟨M, hM⟩ := one
    refine ⟨N + M, fun b hb => ?_⟩
    rcases List.mem_cons.1 hb with rfl | hb
    · exact mono _ (by omega) hM
    · exact mono _ (by omega) (hN b hb)

theorem work_bounded {self : String} {as : List Act} {h : List Ev} {s : State}
    (he : (sys self).exec init as = some (s, h)) :
    worked self init as ≤ 19 * as.countP outside + 7 * as.countP isExit := by
  obtain ⟨N, hN⟩ := lt_exists as
  have h1 := pays_exec (N := N) (.init (M := sys self)) hN he
  have q := invQ_run (Lts.run_of_exec he)
  have h2 := Mpsc.popped_le q.runQ
  have h3 := Mpsc.popped_le q.runR
  have h4 : phi N init = 0 := by
    simp [phi, pot, init, Mpsc.init, Mpsc.PPc.pot, Mpsc.CPc.pot, Mpsc.tokPot, total_zero, sp_idle, lp]
  have h8 : clo N init = 0 := by simp [clo, init, wp, total_zero]
  have h5 : init.mb.cons.inflight.length = 0 := rfl
  have h6 : init.rq.cons.inflight.length = 0 := rfl
  have h7 : (sys self).init = init := rfl
  unfold Pays at h1
  rw [h7] at h1
  omega

/-! ### At rest -/

theorem mpsc_empty {V : Type} {h : List (Mpsc.Ev V)} {s : Mpsc.St V} (hr : (Mpsc.sys V).Run h s)
    (hp : ∀ p, s.prods p = .idle) (hc : s.cons = .idle) (ht : s.tok = none) : Mpsc.empty s = true := by
  obtain ⟨order, k, pend, hg⟩ := Mpsc.run_inv hr
  rcases Nat.lt_or_ge k order.length with h1 | h1
  · obtain ⟨t, h2⟩ := Mpsc.tok_ready hg hp hc h1
    rw [ht] at h2; cases h2
  · simp [Mpsc.empty, Mpsc.tail_next_none hg.1 (List.getElem?_eq_none h1)]

theorem quiet_none {self : String} {s : State} (hq : Quiet self s) {a : Act} (ho : outside a = false) (hx : isExit a = false)
    (ht : a ≠ .check true) (hp : ∀ s' evs, polls s' a evs = false) : step self s a = none := by
  cases h : step self s a with
  | none => rfl
  | some r =>
    obtain ⟨s', evs⟩ := r
    rcases hq s (.refl s) a s' evs h with h1 | h1 | h1 | h1
    · rw [ho] at h1; cases h1
    · rw [hx] at h1; cases h1
    · exact absurd h1 ht
    · rw [hp] at h1; cases h1

theorem rq_idle {self : String} {s : State} (hq : Quiet self s) (hc : s.crashed = false) (p : Nat) : s.rq.prods p = .idle := by
  have h := quiet_none hq (a := .rsend p) rfl rfl (by simp) (fun _ _ => rfl)
  cases hp : s.rq.prods p with
  | idle => rfl
  | _ => simp [step, hc, Mpsc.step, Mpsc.stepProd, hp] at h

theorem fin_run {self : String} {h : List Ev} {s : State} (hr : (sys self).Run h s) : s.chk = .finished → s.closeCh = true := by
  have k := hr.invariant (P := fun h s => (s.chk = .finished → s.closeCh = true) ∧ (∀ b, s.chk = .cas b → s.closed = 1))
    (by simp [sys, init]) (by
      intro h s a s' evs hr' hi hs
      obtain ⟨i1, i2, i3, i4, i5, i6, i7, i8, i9, i10, i11⟩ := invK_run hr'
      have h0 : s.chk = .testR ∨ s.chk = .wait → s.closed = 1 := by
        intro h
        have h1 : s.closed ≠ 0 := fun h2 => by have := i1.2 h2; rcases h with h | h <;> rw [h] at this <;> cases this
        have h2 : s.closed ≠ 2 := fun h2 => by rcases i6 h2 with h3 | h3 <;> rcases h with h | h <;> rw [h] at h3 <;> cases h3
        omega
      simp only [sys] at hs
      cases a <;> step_cases hs <;> simp_all)
  exact k.1

/-- An actor that has been told to exit and has come to rest has stopped. -/
theorem stopped_of_quiet {self : String} {h : List Ev} {s : State} (hr : (sys self).Run h s) (hc : s.crashed = false)
    (hq : Quiet self s) (hs : s.shutdownCh = true) : s.loop = .stopped := by
  apply Classical.byContradiction
  intro hns
  have q := invQ_run hr
  have hl := sel_of_rest hr hc (quiet_none hq rfl rfl (by simp) (fun _ _ => rfl))
    (fun o => quiet_none hq rfl rfl (by simp) (fun _ _ => rfl)) hns
  have hidle := fun p => idle_of_rest hr hc p (quiet_none hq rfl rfl (by simp) (fun _ _ => rfl))
  obtain ⟨i1, i2, i3, i4, i5, i6, i7, i8, i9, i10, i11⟩ := invK_run hr
  have hmc : s.mb.cons = .idle := q.other (by simp [hl]) (by simp [hl])
  have hrc : s.rq.cons = .idle := q.rother (by simp [hl]) (by simp [hl])
  have htm : s.mb.tok = none := by
    have := quiet_none hq (a := .select .mail) rfl rfl (by simp) (fun _ _ => rfl)
    cases ht : s.mb.tok with
    | none => rfl
    | some t => simp [step, hc, stepSelect, hl, Mpsc.step, hmc, ht] at this
  have htr : s.rq.tok = none := by
    have := quiet_none hq (a := .select .reenter) rfl rfl (by simp) (fun _ _ => rfl)
    cases ht : s.rq.tok with
    | none => rfl
    | some t => simp [step, hc, stepSelect, hl, Mpsc.step, hrc, ht] at this
  have hme : Mpsc.empty s.mb = true := mpsc_empty q.runQ (fun p => by
    rcases q.notPushing p with h | ⟨id, m, h⟩
    · exact h
    · rw [hidle p] at h; cases h) hmc htm
  have hre : Mpsc.empty s.rq = true := mpsc_empty q.runR (fun p => rq_idle hq hc p) hrc htr
  have hR : ∀ s1, Polled self s s1 → s1.crashed = false → s1.chk = .testR → Mpsc.empty s1.rq = true → False := by
    intro s1 hp h1 h2 h3
    have h4 : step self s1 (.check false) = some ({ s1 with chk := .cas false }, []) := by simp [step, h1, stepCheck, h2, h3]
    rcases hq s1 hp _ _ _ h4 with h | h | h | h <;> simp [outside, isExit, polls] at h
  have hQ : ∀ s1, Polled self s s1 → s1.crashed = false → s1.chk = .testQ → Mpsc.empty s1.mb = true →
      Mpsc.empty s1.rq = true → False := by
    intro s1 hp h1 h2 h3 h5
    have h4 : step self s1 (.check false) = some ({ s1 with chk := .testR }, []) := by simp [step, h1, stepCheck, h2, h3]
    exact hR _ (hp.step h4 (by simp [polls])) h1 rfl h5
  cases hk : s.chk with
  | off =>
    have h4 : step self s (.select .shutdown) = some ({ s with closed := 1, chk := .testQ }, [.closing]) := by
      simp [step, hc, stepSelect, hl, hs, i1.1 hk]
    rcases hq s (.refl s) _ _ _ h4 with h | h | h | h <;> simp [outside, isExit, polls] at h
  | testQ => exact hQ s (.refl s) hc hk hme hre
  | testR => exact hR s (.refl s) hc hk hre
  | wait =>
    have h4 : step self s (.check false) = some ({ s with chk := .testQ }, []) := by simp [step, hc, stepCheck, hk]
    exact hQ _ ((Polled.refl s).step h4 (by simp [polls])) hc rfl hme hre
  | cas b =>
    have h4 : ∃ s2, step self s (.check false) = some (s2, []) ∧ (s2.chk = .close ∨ s2.chk = .finished) := by
      by_cases h1 : s.closed = 1
      · exact ⟨{ s with closed := 2, chk := .close }, by simp [step, hc, stepCheck, hk, h1], .inl rfl⟩
      · exact ⟨{ s with chk := .finished }, by simp [step, hc, stepCheck, hk, h1], .inr rfl⟩
    obtain ⟨s2, h4, h5⟩ := h4
    rcases hq s (.refl s) _ _ _ h4 with h | h | h | h <;> simp [outside, isExit, polls] at h
    rcases h5 with h5 | h5 <;> simp [h5] at h
  | close =>
    have h4 : step self s (.check false) = some ({ s with closeCh := true, chk := .finished }, []) := by
      simp [step, hc, stepCheck, hk]
    rcases hq s (.refl s) _ _ _ h4 with h | h | h | h <;> simp [outside, isExit, polls] at h
  | finished =>
    have h3 : s.closeCh = true := fin_run hr hk
    have h4 : step self s (.select .close) = some ({ s with loop := .stopped }, [.loopEnd]) := by
      simp [step, hc, stepSelect, hl, h3]
    rcases hq s (.refl s) _ _ _ h4 with h | h | h | h <;> simp [outside, isExit, polls] at h

theorem ext_run {self : String} {h : List Ev} {s : State} (hr : (sys self).Run h s) :
    ∀ x, .exitCall x ∈ h → s.shutdownCh = true ∧ (s.ext x = .waiting ∨ .exitRet x ∈ h ∨ s.crashed = true) := by
  refine hr.invariant (P := fun h s => ∀ x, .exitCall x ∈ h →
    s.shutdownCh = true ∧ (s.ext x = .waiting ∨ .exitRet x ∈ h ∨ s.crashed = true)) (by simp) ?_
  intro h s a s' evs _ hi hs x hm
  have := hi x
  simp only [sys] at hs
  cases a <;> step_cases hs <;> grind [upd_apply]

theorem closing_once {self : String} {h1 h2 : List Ev} {s : State} (hr : (sys self).Run (h1 ++ .closing :: h2) s) :
    .closing ∉ h1 := by
  have k := hr.invariant (P := fun h s => h.count .closing = if s.closed = 0 then 0 else 1) (by simp [sys, init]) (by
    intro h s a s' evs hr' hi hs
    simp only [sys] at hs
    have k := invK_run hr'
    have k3 := k.off
    rw [List.count_append, hi]
    cases a <;> step_cases hs <;> grind)
  intro hm
  have h1' := List.count_pos_iff.2 hm
  rw [List.count_append, List.count_cons] at k
  simp at k
  split at k <;> omega

end Braid.Actor
