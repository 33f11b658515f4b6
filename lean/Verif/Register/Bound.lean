import Verif.Lib.Count
import Verif.Register.Inv
import Verif.Register.SpecBound
import Batteries.Data.List.Perm

/-
How many goroutines are past a check: bounds on the number of records and actors (C30, C31).
-/
namespace Braid.Register
open AddressBook Spec

variable {cfg : Nat → NodeCfg} {factory : Nat → String → Option Int}

/-- All goroutines of the history are below `N`. -/
def Below (N : Nat) (h : List Ev) : Prop := ∀ g o, Ev.begin g o ∈ h → g < N

theorem below_exists (h : List Ev) : ∃ N, Below N h := by
  induction h with
  | nil => exact ⟨0, fun _ _ h => (by cases h)⟩
  | cons e h ih =>
    obtain ⟨N, hN⟩ := ih
    cases e with
    | begin g o =>
      refine ⟨max N (g + 1), fun g' o' hm => ?_⟩
      simp only [List.mem_cons, Ev.begin.injEq] at hm
      rcases hm with ⟨rfl, -⟩ | hm
      · omega
      · have := hN g' o' hm; omega
    | finish => exact ⟨N, fun g' o' hm => hN g' o' (by simpa using hm)⟩
    | created => exact ⟨N, fun g' o' hm => hN g' o' (by simpa using hm)⟩
    | exited => exact ⟨N, fun g' o' hm => hN g' o' (by simpa using hm)⟩

theorem below_left {N : Nat} {h evs : List Ev} (hb : Below N (h ++ evs)) : Below N h :=
  fun g o hm => hb g o (List.mem_append_left _ hm)

theorem atMost_left {κ : Type} [DecidableEq κ] {key : Op → Option κ} {k : κ} {K : Nat} {h evs : List Ev}
    (hb : AtMost key k K (h ++ evs)) : AtMost key k K h :=
  fun pre post he => hb pre (post ++ evs) (by rw [he, List.append_assoc])

/-- Goroutines below `N` in an operation with the key `k`. -/
def inOp {κ : Type} [DecidableEq κ] (key : Op → Option κ) (k : κ) (p : Pc) : Bool :=
  decide (p.op.bind key = some k)

theorem cnt_busy {κ : Type} [DecidableEq κ] {key : Op → Option κ} {k : κ} {h : List Ev} {s : State}
    (hr : (sys cfg factory).Run h s) (N : Nat) : cnt s.pc N (inOp key k) ≤ busy key k h := by
  unfold cnt busy
  rw [List.countP_eq_length_filter, List.countP_eq_length_filter, ← List.length_map (f := Prod.fst)]
  refine (List.subperm_of_subset ((List.nodup_range).filter _) ?_).length_le
  intro g hg
  simp only [List.mem_filter, List.mem_range, inOp, decide_eq_true_eq] at hg
  obtain ⟨-, hg⟩ := hg
  rw [Option.bind_eq_some_iff] at hg
  obtain ⟨o, ho, hk⟩ := hg
  exact List.mem_map.2 ⟨(g, o), List.mem_filter.2 ⟨(active_iff hr g o).2 ho, by simpa using hk⟩, rfl⟩

theorem cnt_mono {β : Type} {f : Nat → β} {N : Nat} {p q : β → Bool} (h : ∀ b, p b = true → q b = true) :
    cnt f N p ≤ cnt f N q := List.countP_mono_left fun i _ hp => h _ hp

/-- The goroutine of an action. -/
def Act.who : Act → Nat
  | .start g _ => g
  | .go g => g
  | .fail g => g

theorem who_below {h : List Ev} {s : State} (hr : (sys cfg factory).Run h s) {N : Nat} {a : Act} {s' : State}
    {evs : List Ev} (hs : step cfg factory s a = some (s', evs)) (hb : Below N (h ++ evs)) : a.who < N := by
  cases a with
  | start g o =>
    have : evs = [.begin g o] := by
      simp only [step] at hs
      repeat' (split at hs)
      all_goals cases hs
      all_goals rfl
    exact hb g o (by simp [this])
  | go g =>
    cases ho : (s.pc g).op with
    | none =>
      exfalso
      simp only [step, stepGo] at hs
      cases hp : s.pc g <;> rw [hp] at ho hs <;> cases ho
      cases hs
    | some o => exact hb g o (List.mem_append_left _ (begun hr ho))
  | fail g =>
    cases ho : (s.pc g).op with
    | none =>
      exfalso
      simp only [step, stepFail] at hs
      cases hp : s.pc g <;> rw [hp] at ho hs <;> cases ho
      cases hs
    | some o => exact hb g o (List.mem_append_left _ (begun hr ho))

/-- A step changes the place of its goroutine only. -/
theorem pc_step {s : State} {a : Act} {s' : State} {evs : List Ev} (hs : step cfg factory s a = some (s', evs)) :
    s'.pc = upd s.pc a.who (s'.pc a.who) := by
  rg_cases hs
  all_goals simp only [Act.who, upd_same]

/-! ### Records -/

/-- `Register` has counted the records of type `ty`, and not yet added its own. -/
def pends (ty : String) (p : Pc) : Bool := decide (p.pend = some ty)

theorem pends_inOp {ty : String} (p : Pc) (h : pends ty p = true) : inOp typeKey ty p = true := by
  simp only [pends, inOp, decide_eq_true_eq] at *
  exact pend_key h

theorem cnt_lt {β : Type} {f : Nat → β} {N i : Nat} {p q : β → Bool} (h : ∀ b, p b = true → q b = true) (hi : i < N)
    (h1 : p (f i) = false) (h2 : q (f i) = true) : cnt f N p < cnt f N q := by
  induction N with
  | zero => omega
  | succ N ih =>
    rw [cnt_succ, cnt_succ]
    by_cases hN : i = N
    · subst hN
      have := cnt_mono (f := f) (N := i) h
      simp [h1, h2]; omega
    · have := ih (by omega)
      have := h (f N)
      by_cases h3 : p (f N) = true <;> by_cases h4 : q (f N) = true <;> simp_all <;> omega

theorem many_step {ty : String} {L : Int} {K N : Nat} {h : List Ev} {s : State} {a : Act} {s' : State} {evs : List Ev}
    (hr : (sys cfg factory).Run h s)
    (hu : ∀ g n b, (s.pc g).op = some (.reg n b) → b.ty = ty → b.limit ≠ 0 ∧ b.limit ≤ L)
    (hK : busy typeKey ty h ≤ K) (hN : Below N (h ++ evs))
    (hi : ((s.W.redis.tys ty).length : Int) + cnt s.pc N (pends ty) ≤ L + K - 1)
    (hs : step cfg factory s a = some (s', evs)) :
    ((s'.W.redis.tys ty).length : Int) + cnt s'.pc N (pends ty) ≤ L + K - 1 := by
  have hw := who_below hr hs hN
  have hc := cnt_upd s.pc N a.who (s'.pc a.who) (pends ty) hw
  rw [← pc_step hs] at hc
  have hb := cnt_busy (key := typeKey) (k := ty) hr N
  have hlt : pends ty (s.pc a.who) = false → inOp typeKey ty (s.pc a.who) = true →
      cnt s.pc N (pends ty) < cnt s.pc N (inOp typeKey ty) := cnt_lt pends_inOp hw
  have r1 := @run_register_cmd cfg
  have r2 := @run_unregister_cmd cfg
  have u1 : ∀ g n b, s.pc g = .rMap n b → b.ty = ty → b.limit ≠ 0 ∧ b.limit ≤ L :=
    fun g n b h => hu g n b (by rw [h]; rfl)
  have u2 : ∀ g n b, s.pc g = .rCount n b → b.ty = ty → b.limit ≠ 0 ∧ b.limit ≤ L :=
    fun g n b h => hu g n b (by rw [h]; rfl)
  clear hu
  rg_cases hs
  all_goals simp only [upd_same, setIdmap, Act.who, pends, inOp, typeKey, Pc.op] at *
  all_goals grind [Pc.pend, Pc.op, getActorTypeCount, typeKey]

theorem many_run {ty : String} {L : Int} {K N : Nat} (hL : 0 < L + K) {h : List Ev} {s : State}
    (hr : (sys cfg factory).Run h s) (hN : Below N h) (hK : AtMost typeKey ty K h)
    (hu : ∀ g n b, Ev.begin g (.reg n b) ∈ h → b.ty = ty → b.limit ≠ 0 ∧ b.limit ≤ L) :
    ((s.W.redis.tys ty).length : Int) + cnt s.pc N (pends ty) ≤ L + K - 1 := by
  revert hN hK hu
  refine hr.invariant (P := fun h s => Below N h → AtMost typeKey ty K h →
    (∀ g n b, Ev.begin g (.reg n b) ∈ h → b.ty = ty → b.limit ≠ 0 ∧ b.limit ≤ L) →
    ((s.W.redis.tys ty).length : Int) + cnt s.pc N (pends ty) ≤ L + K - 1) ?_ ?_
  · intro _ _ _
    have : cnt (fun _ => Pc.idle) N (pends ty) = 0 := by
      unfold cnt; rw [List.countP_eq_zero]; intro _ _; simp [pends, Pc.pend]
    simp only [sys, init, World.init, this, List.length_nil]
    omega
  · intro h s a s' evs hr hi hs hN hK hu
    have hu' := fun g n b hb => hu g n b (List.mem_append_left _ hb)
    have hK' := atMost_left hK
    exact many_step hr (fun g n b hg => hu' g n b (begun hr hg)) (hK' h [] (by simp)) hN
      (hi (below_left hN) hK' hu') hs

end Braid.Register
