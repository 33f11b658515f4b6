import Verif.Mpsc.Loop
import Verif.Actor.Count

/-
Every schedule of an actor that is not told to exit comes to rest (helper lemmas): a potential that every step lowers.
-/
namespace Braid.Actor
open Spec
open Mpsc (pot invIds popped)

theorem mpot_step {V : Type} {h : List (Mpsc.Ev V)} {s s' : Mpsc.St V} {a : Mpsc.Act V} {evs : List (Mpsc.Ev V)} {N : Nat}
    (hr : (Mpsc.sys V).Run h s) (hs : Mpsc.step s a = some (s', evs)) (hN : a.lt N) (hp : a = .pop → s.cons ≠ .idle) :
    1 + pot N s' + 6 * s.cons.inflight.length ≤
      pot N s + 8 * (if a.isPush then 1 else 0) + 6 * ((popped evs).length + s'.cons.inflight.length) := by
  refine Mpsc.pot_step hr hN ?_
  cases a
  case pop =>
    have hc := hp rfl
    cases hk : s.cons with
    | idle => exact absurd hk hc
    | _ => simpa only [Mpsc.loopSys, hk] using hs
  all_goals exact hs

/-- Steps to come of a delivery. -/
def sp : SPc → Nat
  | .idle => 0
  | .load _ => 18
  | .add _ => 17
  | .push _ => 16
  | .pushing _ _ => 0

theorem sp_idle : sp .idle = 0 := rfl
theorem sp_load (m : Msg) : sp (.load m) = 18 := rfl
theorem sp_add (m : Msg) : sp (.add m) = 17 := rfl
theorem sp_push (m : Msg) : sp (.push m) = 16 := rfl
theorem sp_pushing (id : Nat) (m : Msg) : sp (.pushing id m) = 0 := rfl

/-- Steps to come of the loop. -/
def lp : LPc → Nat
  | .tick _ => 2
  | .timer _ => 1
  | .handle _ _ => 2
  | .release _ _ => 1
  | .action _ _ => 1
  | _ => 0

def phi (N : Nat) (s : State) : Nat :=
  pot N s.mb + pot N s.rq + total (fun p => sp (s.snd p)) N + lp s.loop + 3 * s.timerChan.length

def actLt (N : Nat) : Act → Prop
  | .recv p _ => p < N
  | .deliver p _ => p < N
  | .send p => p < N
  | .rpush p _ => p < N
  | .rsend p => p < N
  | .exit _ => False
  | _ => True

/-- `Exit` was not called. -/
structure Running (s : State) : Prop where
  crash : s.crashed = false
  shut : s.shutdownCh = false
  cl : s.closeCh = false
  chk : s.chk = .off
  ext : ∀ x, s.ext x ≠ .waiting

theorem running_init : Running init := by constructor <;> simp [init]

theorem running_step {self : String} {N : Nat} {s s' : State} {a : Act} {evs : List Ev} (i : Running s) (hN : actLt N a)
    (hs : step self s a = some (s', evs)) : Running s' := by
  obtain ⟨i0, i1, i2, i3, i4⟩ := i
  cases a with
  | exit x => cases hN
  | _ => step_cases hs <;> constructor <;> simp_all

/-- Not a step of closing. -/
def plain : Act → Prop
  | .select .shutdown => False
  | .select .close => False
  | .check _ => False
  | .exit _ => False
  | .exitWait _ => False
  | _ => True

theorem phi_step0 {self : String} {h : List Ev} {s s' : State} {a : Act} {evs : List Ev} {N : Nat} (hr : (sys self).Run h s)
    (hpl : plain a) (hN : actLt N a) (hs : step self s a = some (s', evs)) :
    1 + phi N s' + 8 * (invIds (evs.filterMap projQ)).length + 7 * (invIds (evs.filterMap projR)).length +
        6 * s.mb.cons.inflight.length + 6 * s.rq.cons.inflight.length ≤
      phi N s + 19 * (if outside a then 1 else 0) + 6 * s'.mb.cons.inflight.length + 6 * s'.rq.cons.inflight.length +
        8 * (popped (evs.filterMap projQ)).length + 7 * (popped (evs.filterMap projR)).length := by
  have q := invQ_run hr
  cases a with
  | recv p m =>
    have ht := total_upd s.snd sp p (.load m) N hN
    step_cases hs <;> simp_all [phi, projQ, projR, invIds, popped, outside, List.filterMap_cons, sp_idle, sp_load] <;> omega
  | deliver p m =>
    have ht := total_upd s.snd sp p (.add m) N hN
    step_cases hs <;> simp_all [phi, projQ, projR, invIds, popped, outside, List.filterMap_cons, sp_idle, sp_add] <;> omega
  | send p =>
    have ht := fun v => total_upd s.snd sp p v N hN
    step_cases hs
    · rename_i hp _
      have := ht .idle
      simp only [hp, sp_load, sp_idle] at this
      simp [phi, projQ, projR, invIds, popped, outside, List.filterMap_cons]; omega
    · rename_i m hp _
      have := ht (.add m)
      simp only [hp, sp_load, sp_add] at this
      simp [phi, projQ, projR, invIds, popped, outside]; omega
    · rename_i m hp
      have := ht (.push m)
      simp only [hp, sp_push, sp_add] at this
      simp [phi, projQ, projR, invIds, popped, outside, List.filterMap_cons]; omega
    · rename_i m hp _ _ _ id _ hst
      have := ht (.pushing id m)
      simp only [hp, sp_push, sp_pushing] at this
      have h1 := mpot_step (N := N) q.runQ hst hN (by simp)
      simp [Mpsc.Act.isPush, popped] at h1
      simp [phi, projQ, projR, invIds, popped, outside, List.filterMap_cons]; omega
    · rename_i id m hp _ _ hst
      have h1 := mpot_step (N := N) q.runQ hst hN (by simp)
      simp [Mpsc.Act.isPush, popped] at h1
      simp [phi, projQ, projR, invIds, popped, outside]; omega
    · rename_i id m hp _ _ _ hst
      have := ht .idle
      simp only [hp, sp_pushing, sp_idle] at this
      have h1 := mpot_step (N := N) q.runQ hst hN (by simp)
      simp [Mpsc.Act.isPush, popped] at h1
      simp [phi, projQ, projR, invIds, popped, outside, List.filterMap_cons]; omega
  | rpush p r =>
    step_cases hs
    rename_i hst
    have h1 := mpot_step (N := N) q.runR hst hN (by simp)
    simp [Mpsc.Act.isPush, popped] at h1
    simp [phi, projQ, projR, invIds, popped, outside, List.filterMap_cons]; omega
  | rsend p =>
    step_cases hs
    all_goals
      rename_i hst
      have h1 := mpot_step (N := N) q.runR hst hN (by simp)
      simp [Mpsc.Act.isPush, popped] at h1
      simp [phi, projQ, projR, invIds, popped, outside, List.filterMap_cons]; omega
  | tick t =>
    step_cases hs
    simp [phi, projQ, projR, invIds, popped, outside]; omega
  | onEvent ev =>
    step_cases hs <;> (simp [phi, projQ, projR, invIds, popped, outside, List.filterMap_cons]; omega)
  | select c =>
    step_cases hs
    · rename_i hl _ _ _ _ hc
      simp [phi, projQ, projR, invIds, popped, outside, hl, hc, lp]; omega
    · rename_i hl _ _ _ _ hst
      have h1 := mpot_step (N := N) q.runQ hst trivial (by simp)
      have h2 := (Mpsc.step_recv hst).1
      subst h2
      simp [Mpsc.Act.isPush, popped] at h1
      simp [phi, projQ, projR, invIds, popped, outside, hl, lp]; omega
    · rename_i hl _ _ _ _ hst
      have h1 := mpot_step (N := N) q.runR hst trivial (by simp)
      have h2 := (Mpsc.step_recv hst).1
      subst h2
      simp [Mpsc.Act.isPush, popped] at h1
      simp [phi, projQ, projR, invIds, popped, outside, hl, lp]; omega
    all_goals simp [plain] at hpl
  | loop =>
    step_cases hs
    · rename_i hl _
      simp [phi, projQ, projR, invIds, popped, outside, hl, lp]; omega
    · rename_i hl _
      simp [phi, projQ, projR, invIds, popped, outside, hl, lp, List.filterMap_cons]; omega
    · rename_i hl _ _ hst
      have h1 := mpot_step (N := N) q.runQ hst trivial (by intro _; rw [q.got hl]; simp)
      simp [Mpsc.Act.isPush, popped] at h1
      simp [phi, projQ, projR, invIds, popped, outside, hl, lp, List.filterMap_cons]; omega
    · rename_i hl _ _ hst
      have h1 := mpot_step (N := N) q.runQ hst trivial (by simp)
      simp [Mpsc.Act.isPush, popped] at h1
      simp [phi, projQ, projR, invIds, popped, outside, hl]; omega
    · rename_i hl _ _ hst
      have h1 := mpot_step (N := N) q.runQ hst trivial (by simp)
      simp [Mpsc.Act.isPush, popped] at h1
      simp [phi, projQ, projR, invIds, popped, outside, hl, lp, List.filterMap_cons]; omega
    · rename_i hl _ _ _ _ hst
      have h1 := mpot_step (N := N) q.runQ hst trivial (by simp)
      simp [Mpsc.Act.isPush, popped] at h1
      simp [phi, projQ, projR, invIds, popped, outside, hl, lp, List.filterMap_cons]; omega
    · rename_i hl
      simp [phi, projQ, projR, invIds, popped, outside, hl, lp, List.filterMap_cons]; omega
    · rename_i hl _ _ hst
      have h1 := mpot_step (N := N) q.runR hst trivial (by intro _; rw [q.rgot hl]; simp)
      simp [Mpsc.Act.isPush, popped] at h1
      simp [phi, projQ, projR, invIds, popped, outside, hl, lp, List.filterMap_cons]; omega
    · rename_i hl _ _ hst
      have h1 := mpot_step (N := N) q.runR hst trivial (by simp)
      simp [Mpsc.Act.isPush, popped] at h1
      simp [phi, projQ, projR, invIds, popped, outside, hl]; omega
    · rename_i hl _ _ hst
      have h1 := mpot_step (N := N) q.runR hst trivial (by simp)
      simp [Mpsc.Act.isPush, popped] at h1
      simp [phi, projQ, projR, invIds, popped, outside, hl, lp, List.filterMap_cons]; omega
    · rename_i hl _ _ _ _ hst
      have h1 := mpot_step (N := N) q.runR hst trivial (by simp)
      simp [Mpsc.Act.isPush, popped] at h1
      simp [phi, projQ, projR, invIds, popped, outside, hl, lp, List.filterMap_cons]; omega
  | ended o =>
    step_cases hs <;> (rename_i hl; try rename_i hl _) <;>
      (simp_all [phi, projQ, projR, invIds, popped, outside, lp, List.filterMap_cons]; omega)
  | check t => cases hpl
  | exit x => cases hpl
  | exitWait x => cases hpl

theorem phi_step {self : String} {h : List Ev} {s s' : State} {a : Act} {evs : List Ev} {N : Nat} (hr : (sys self).Run h s)
    (i : Running s) (hN : actLt N a) (hs : step self s a = some (s', evs)) :
    1 + phi N s' + 8 * (invIds (evs.filterMap projQ)).length + 7 * (invIds (evs.filterMap projR)).length +
        6 * s.mb.cons.inflight.length + 6 * s.rq.cons.inflight.length ≤
      phi N s + 19 * (if outside a then 1 else 0) + 6 * s'.mb.cons.inflight.length + 6 * s'.rq.cons.inflight.length +
        8 * (popped (evs.filterMap projQ)).length + 7 * (popped (evs.filterMap projR)).length := by
  have hpl : plain a := by
    obtain ⟨i0, i1, i2, i3, i4⟩ := i
    cases a with
    | select c => cases c <;> first | trivial | (step_cases hs <;> simp_all)
    | check t => step_cases hs <;> simp_all
    | exit x => cases hN
    | exitWait x => step_cases hs; simp_all
    | _ => trivial
  exact phi_step0 hr hpl hN hs

/-! ### Executions -/

theorem phi_exec {self : String} {N : Nat} : ∀ {as : List Act} {h : List Ev} {s s' : State} {evs : List Ev},
    (sys self).Run h s → Running s → (∀ a ∈ as, actLt N a) → (sys self).exec s as = some (s', evs) →
    Running s' ∧
    as.length + phi N s' + 8 * (invIds (evs.filterMap projQ)).length + 7 * (invIds (evs.filterMap projR)).length +
        6 * s.mb.cons.inflight.length + 6 * s.rq.cons.inflight.length ≤
      phi N s + 19 * as.countP outside + 6 * s'.mb.cons.inflight.length + 6 * s'.rq.cons.inflight.length +
        8 * (popped (evs.filterMap projQ)).length + 7 * (popped (evs.filterMap projR)).length := by
  intro as
  induction as with
  | nil =>
    intro h s s' evs _ hi _ he
    simp [Lts.exec] at he; obtain ⟨rfl, rfl⟩ := he
    exact ⟨hi, by simp [popped, invIds]⟩
  | cons a as ih =>
    intro h s s' evs hr hi hN he
    simp only [Lts.exec] at he
    split at he
    · cases he
    · rename_i s1 e1 hs
      split at he
      · cases he
      · rename_i s2 e2 he2
        simp only [Option.some.injEq, Prod.mk.injEq] at he; obtain ⟨rfl, rfl⟩ := he
        have h1 := phi_step hr hi (hN a (by simp)) hs
        have h2 := ih (hr.step hs) (running_step hi (hN a (by simp)) hs) (fun b hb => hN b (by simp [hb])) he2
        refine ⟨h2.1, ?_⟩
        have h2 := h2.2
        rw [List.filterMap_append, List.filterMap_append, Mpsc.popped_append, Mpsc.popped_append,
          Mpsc.invIds_append, Mpsc.invIds_append]
        simp only [List.length_cons, List.countP_cons, List.length_append]
        omega

theorem actLt_exists (as : List Act) (hx : ∀ x, .exit x ∉ as) : ∃ N, ∀ a ∈ as, actLt N a := by
  induction as with
  | nil => exact ⟨0, by simp⟩
  | cons a as ih =>
    obtain ⟨N, hN⟩ := ih (fun x hm => hx x (by simp [hm]))
    have mono : ∀ (b : Act) {m n : Nat}, m ≤ n → actLt m b → actLt n b := by
      intro b m n hmn hb
      cases b <;> simp only [actLt] at * <;> omega
    have one : ∃ M, actLt M a := by
      cases a with
      | recv p m => exact ⟨p + 1, Nat.lt_succ_self p⟩
      | deliver p m => exact ⟨p + 1, Nat.lt_succ_self p⟩
      | send p => exact ⟨p + 1, Nat.lt_succ_self p⟩
      | rpush p r => exact ⟨p + 1, Nat.lt_succ_self p⟩
      | rsend p => exact ⟨p + 1, Nat.lt_succ_self p⟩
      | exit x => exact absurd (by simp) (hx x)
      | _ => exact ⟨0, trivial⟩
    obtain ⟨M, hM⟩ := one
    refine ⟨N + M, fun b hb => ?_⟩
    rcases List.mem_cons.1 hb with rfl | hb
    · exact mono _ (by omega) hM
    · exact mono _ (by omega) (hN b hb)

theorem rest_bounded {self : String} {as : List Act} {h : List Ev} {s : State}
    (he : (sys self).exec init as = some (s, h)) (hx : ∀ x, .exit x ∉ as) :
    Running s ∧ as.length ≤ 19 * as.countP outside := by
  obtain ⟨N, hN⟩ := actLt_exists as hx
  obtain ⟨h0, h1⟩ := phi_exec (N := N) (.init (M := sys self)) running_init hN he
  refine ⟨h0, ?_⟩
  have q := invQ_run (Lts.run_of_exec he)
  have h2 := Mpsc.popped_le q.runQ
  have h3 := Mpsc.popped_le q.runR
  have h4 : phi N init = 0 := by
    simp [phi, pot, init, Mpsc.init, Mpsc.PPc.pot, Mpsc.CPc.pot, Mpsc.tokPot, total_zero, sp_idle, lp]
  have h5 : init.mb.cons.inflight.length = 0 := rfl
  have h6 : init.rq.cons.inflight.length = 0 := rfl
  have h7 : (sys self).init = init := rfl
  rw [h7] at h1
  omega

/-! ### Returns -/

theorem returns_append (p : Nat) (h h' : List Ev) : returns p (h ++ h') = returns p h + returns p h' := by
  simp [returns, List.countP_append]

def busy : SPc → Nat
  | .idle => 0
  | _ => 1

theorem calls_exec {self : String} (p : Nat) : ∀ {as : List Act} {s s' : State} {evs : List Ev},
    (sys self).exec s as = some (s', evs) →
    calls p as + busy (s.snd p) = returns p evs + busy (s'.snd p) := by
  intro as
  induction as with
  | nil => intro s s' evs he; simp [Lts.exec] at he; obtain ⟨rfl, rfl⟩ := he; simp [calls, returns]
  | cons a as ih =>
    intro s s' evs he
    simp only [Lts.exec] at he
    split at he
    · cases he
    · rename_i s1 e1 hs
      split at he
      · cases he
      · rename_i s2 e2 he2
        simp only [Option.some.injEq, Prod.mk.injEq] at he; obtain ⟨rfl, rfl⟩ := he
        have h2 := ih he2
        rw [returns_append]
        have h1 : calls p [a] + busy (s.snd p) = returns p e1 + busy (s1.snd p) := by
          clear ih h2 he2
          simp only [sys] at hs
          cases a <;> step_cases hs <;> simp [calls, returns, upd_apply, busy] <;> grind [busy]
        simp only [calls, List.countP_cons, List.countP_nil] at h1 h2 ⊢
        omega

/-! ### At rest -/

theorem invIds_nodup {V : Type} {h : List (Mpsc.Ev V)} {s : Mpsc.St V} (hr : (Mpsc.sys V).Run h s) : (invIds h).Nodup := by
  obtain ⟨order, k, pend, A, B, -⟩ := Mpsc.run_inv hr
  have key : ∀ h : List (Mpsc.Ev V), (∀ p q a x b y, Before h (Mpsc.Ev.pushInv p a x) (Mpsc.Ev.pushInv q b y) → a < b) →
      (invIds h).Pairwise (· < ·) := by
    intro h
    induction h with
    | nil => intro _; exact .nil
    | cons e h ih =>
      intro hb
      have ih' := ih (fun p q a x b y hh => hb p q a x b y (hh.cons e))
      cases e with
      | pushInv p id x =>
        refine List.Pairwise.cons ?_ ih'
        intro b hbm
        have : ∃ q y, Mpsc.Ev.pushInv q b y ∈ h := by
          clear ih ih' hb
          induction h with
          | nil => cases hbm
          | cons e h ih =>
            cases e <;> simp [invIds] at hbm ⊢ <;> grind
        obtain ⟨q, y, hm⟩ := this
        exact hb p q id x b y (.cons_cons _ (List.singleton_sublist.2 hm))
      | _ => exact ih'
  exact (key h B.incr).imp (fun hab => Nat.ne_of_lt hab)

theorem enterIds (h : List Ev) : (h.filterMap aEnterId).map Prod.fst = invIds (h.filterMap projQ) := by
  induction h with
  | nil => rfl
  | cons e h ih => cases e <;> simp_all [List.filterMap_cons, projQ, aEnterId, invIds]

theorem enter_le_start {self : String} {h : List Ev} {s : State} (hr : (sys self).Run h s)
    (hall : ∀ p id m, .enter p id m ∈ h → .start id m ∈ h) (g : Nat) :
    (h.filterMap aEnter).countP (ofGroup g) ≤ (started h).countP (ofGroup g) := by
  rw [← enterId_countP]
  have hn : (h.filterMap aEnterId).Nodup := by
    have := invIds_nodup (invQ_run hr).runQ
    rw [← enterIds] at this
    exact List.Pairwise.of_map Prod.fst (fun a b hab => fun e => hab (e ▸ rfl)) this
  apply List.Subperm.countP_le
  apply List.subperm_of_subset hn
  rintro ⟨id, m⟩ hm
  obtain ⟨e, h1, h2⟩ := List.mem_filterMap.1 hm
  cases e <;> simp [aEnterId] at h2
  obtain ⟨rfl, rfl⟩ := h2
  exact mem_started.2 (hall _ _ _ h1)

theorem sel_of_rest {self : String} {h : List Ev} {s : State} (hr : (sys self).Run h s) (i0 : s.crashed = false)
    (hloop : step self s .loop = none) (hend : ∀ o, step self s (.ended o) = none) (hns : s.loop ≠ .stopped) : s.loop = .sel := by
  have q := invQ_run hr
  have cons : ∀ {V : Type} {m : Mpsc.St V}, m.cons.busy → ∃ m' e, Mpsc.step m .cons = some (m', e) ∧
      (e = [] ∨ e = [.popRet none] ∨ ∃ id v, e = [.popRet (some (id, v))]) := by
    intro V m hb
    simp only [Mpsc.step, Mpsc.stepCons]
    cases hc : m.cons with
    | idle => rw [hc] at hb; simp [Mpsc.CPc.busy] at hb
    | ready => rw [hc] at hb; simp [Mpsc.CPc.busy] at hb
    | load =>
      simp only
      split
      · exact ⟨_, _, rfl, .inl rfl⟩
      · exact ⟨_, _, rfl, .inr (.inl rfl)⟩
    | take n => exact ⟨_, _, rfl, .inl rfl⟩
    | dec n v => exact ⟨_, _, rfl, .inl rfl⟩
    | send n v c =>
      cases v with
      | none => exact ⟨_, _, rfl, .inr (.inl rfl)⟩
      | some x => exact ⟨_, _, rfl, .inr (.inr ⟨_, _, rfl⟩)⟩
  cases hl : s.loop with
  | sel => rfl
  | tick t => simp only [step, i0, stepLoop, hl] at hloop; simp at hloop; split at hloop <;> simp at hloop
  | timer t => have := hend .ok; simp [step, i0, stepEnded, hl] at this
  | got =>
    have := q.got hl
    simp [step, i0, stepLoop, hl, Mpsc.step, this] at hloop
  | pop =>
    obtain ⟨m', e, h1, h2 | h2 | ⟨id, v, h2⟩⟩ := cons (q.pop hl) <;> subst h2 <;>
      simp [step, i0, stepLoop, hl, h1] at hloop
  | handle id m =>
    by_cases hm : m.ev ∈ s.chains
    · have := hend .ok; simp [step, i0, stepEnded, hl, hm] at this
    · have := hend .unknown; simp [step, i0, stepEnded, hl, hm] at this
  | release id m => simp [step, i0, stepLoop, hl] at hloop
  | rgot =>
    have := q.rgot hl
    simp [step, i0, stepLoop, hl, Mpsc.step, this] at hloop
  | rpop =>
    obtain ⟨m', e, h1, h2 | h2 | ⟨id, v, h2⟩⟩ := cons (q.rpop hl) <;> subst h2 <;>
      simp [step, i0, stepLoop, hl, h1] at hloop
  | action id r => have := hend .ok; simp [step, i0, stepEnded, hl] at this
  | stopped => exact absurd hl hns

theorem idle_of_rest {self : String} {h : List Ev} {s : State} (hr : (sys self).Run h s) (hc : s.crashed = false) (p : Nat)
    (hs : step self s (.send p) = none) : s.snd p = .idle := by
  have q := invQ_run hr
  have hn := q.notPushing p
  cases hp : s.snd p with
  | idle => rfl
  | load m => simp only [step, hc, stepSend, hp] at hs; simp at hs; split at hs <;> simp at hs
  | add m => simp [step, hc, stepSend, hp] at hs
  | push m => simp [hp] at hn; simp [step, hc, stepSend, hp, Mpsc.step, hn] at hs
  | pushing id m =>
    have := (q.pushing p id m hp).1
    cases hq : s.mb.prods p <;> simp [hq, Mpsc.PPc.id?] at this <;>
      simp [step, hc, stepSend, hp, Mpsc.step, Mpsc.stepProd, hq] at hs

theorem not_stopped_run {self : String} {h : List Ev} {s : State} (hr : (sys self).Run h s) :
    s.loop = .stopped → s.closeCh = true := by
  refine hr.invariant (P := fun h s => s.loop = .stopped → s.closeCh = true) (by simp [sys, init]) ?_
  intro h s a s' evs _ hi hs
  simp only [sys] at hs
  cases a <;> step_cases hs <;> simp_all

def fActionStart : Ev → Option (Nat × Nat) | .actionStart id m => some (id, m) | _ => none
def fActionEnd : Ev → Option (Nat × Nat) | .actionEnd id m => some (id, m) | _ => none
def pendAction : LPc → List (Nat × Nat) | .action id m => [(id, m)] | _ => []

theorem actions_run {self : String} {h : List Ev} {s : State} (hr : (sys self).Run h s) :
    h.filterMap fActionStart = h.filterMap fActionEnd ++ pendAction s.loop := by
  refine hr.invariant (P := fun h s => h.filterMap fActionStart = h.filterMap fActionEnd ++ pendAction s.loop) rfl ?_
  intro h s a s' evs _ hi hs
  simp only [List.filterMap_append, hi, List.append_assoc]
  congr 1
  clear hi
  simp only [sys] at hs
  cases a <;> step_cases hs <;> simp_all [List.filterMap_cons, fActionStart, fActionEnd, pendAction]

theorem popped_projR (h : List Ev) : popped (h.filterMap projR) = h.filterMap fActionStart := by
  induction h with
  | nil => rfl
  | cons e h ih => cases e <;> simp_all [List.filterMap_cons, projR, fActionStart, popped]

end Braid.Actor
