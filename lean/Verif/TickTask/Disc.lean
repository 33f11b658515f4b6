import Verif.TickTask.DiscSpec
import Verif.TickTask.Inv

namespace Braid.TickTask

/-- A goroutine that will never go on. -/
def Parked (s : State) (l : Nat) : Prop :=
  s.loop l = .off ∨ ∃ k, s.loop l = .recv k ∧ s.tk k = ⟨true, false⟩ ∧ k < s.ntk

/-- A goroutine that uses the ticker `K`. -/
def Using (s : State) (L K : Nat) : Prop :=
  s.loop L = .pre ∨ s.loop L = .run ∨ s.loop L = .post ∨ s.loop L = .read ∨ s.loop L = .recv K

/-- 1 while the handler runs in `L`. -/
def inHandler (s : State) (L : Nat) : Nat := if s.loop L = .run then 1 else 0

/-- Handler calls that a goroutine can still begin with a stopped ticker. -/
def left (s : State) (L K : Nat) : Nat :=
  (if s.loop L = .pre then 1 else 0) + (if (s.tk K).full then 1 else 0)

inductive Phase
  | quiet | delayed | starting (L : Nat) | live (L K : Nat) | stopped (L K : Nat)

/-- What a phase means; `d`: calls that run. -/
def Is (s : State) (d : Nat) : Phase → Prop
  | .quiet => s.delayed = 0 ∧ (∀ l, Parked s l) ∧ d = 0
  | .delayed => s.delayed = 1 ∧ (∀ l, Parked s l) ∧ d = 0
  | .starting L => s.delayed = 0 ∧ L < s.nloop ∧ s.loop L = .make ∧ (∀ l, l ≠ L → Parked s l) ∧ d = 0
  | .live L K => s.delayed = 0 ∧ L < s.nloop ∧ Using s L K ∧ (∀ l, l ≠ L → Parked s l) ∧
      s.ticker = some K ∧ K < s.ntk ∧ (s.tk K).stopped = false ∧ d = inHandler s L
  | .stopped L K => s.delayed = 0 ∧ L < s.nloop ∧ Using s L K ∧ (∀ l, l ≠ L → Parked s l) ∧
      s.ticker = some K ∧ K < s.ntk ∧ (s.tk K).stopped = true ∧ d = inHandler s L

/-- How many calls are left, by phase. -/
def leftIn (s : State) : Phase → Option Nat
  | .quiet => some 0
  | .stopped L K => some (left s L K)
  | _ => none

/-- No goroutine will go on. -/
def Still (s : State) : Prop := s.delayed = 0 ∧ ∀ l, Parked s l

/-- Where the callers can be in a phase. -/
def ClOk (s : State) (φ : Phase) : CPc → Prop
  | .idle => True
  | .lock => s.tstate = .run ∨ Still s
  | .check => s.tstate = .run ∨ Still s
  | .set => s.tstate ≠ .run ∧ Still s
  | .spawn => s.tstate = .run ∧ φ = .quiet
  | .unlock _ => s.tstate = .run
  | .scheck => s.tstate = .run → ∃ L K, φ = .live L K
  | .sticker => s.tstate = .run ∧ ∃ L K, φ = .live L K
  | .sset => s.tstate = .run ∧ ∃ L K, φ = .stopped L K

/-- The phases of a task state. -/
def TsOk (s : State) (φ : Phase) : TState → Prop
  | .init => φ = .quiet
  | .stop => φ = .quiet ∨ ∃ L K, φ = .stopped L K
  | .run => φ = .delayed ∨ (∃ L, φ = .starting L) ∨ (∃ L K, φ = .live L K) ∨
      (φ = .quiet ∧ ∃ p, s.cl p = .spawn) ∨ ((∃ L K, φ = .stopped L K) ∧ ∃ p, s.cl p = .sset)

structure Disc (h : List Ev) (s : State) (φ : Phase) : Prop where
  is : ∃ d, Is s d φ ∧ begins h = ends h + d
  cl : ∀ p, ClOk s φ (s.cl p)
  one : ∀ p q, s.cl p ≠ .idle → s.cl q ≠ .idle → p = q
  ts : TsOk s φ s.tstate
  off : ∀ l, s.nloop ≤ l → s.loop l = .off
  since : ∀ n, sinceStop none h = some n → ∃ m, leftIn s φ = some m ∧ n + m ≤ 2

/-- What is to be shown of the history. -/
def Good (h : List Ev) : Prop :=
  begins h ≤ ends h + 1 ∧ (∀ n, sinceStop none h = some n → n ≤ 2) ∧ ∀ p, Ev.stopCrash p ∉ h

theorem since_append (x : Option Nat) (a b : List Ev) :
    sinceStop x (a ++ b) = sinceStop (sinceStop x a) b := by
  induction a generalizing x with
  | nil => rfl
  | cons e a ih =>
    cases e with
    | stopRet p b' => cases b' <;> simp [sinceStop, ih]
    | _ => simp [sinceStop, ih]

theorem inHandler_le (s : State) (L : Nat) : inHandler s L ≤ 1 := by unfold inHandler; split <;> omega

theorem is_le {s : State} {d : Nat} {φ : Phase} (h : Is s d φ) : d ≤ 1 := by
  cases φ with
  | quiet => have := h.2.2; omega
  | delayed => have := h.2.2; omega
  | starting L => have := h.2.2.2.2; omega
  | live L K => have := h.2.2.2.2.2.2.2; have := inHandler_le s L; omega
  | stopped L K => have := h.2.2.2.2.2.2.2; have := inHandler_le s L; omega

theorem Disc.bound {h : List Ev} {s : State} {φ : Phase} (D : Disc h s φ) :
    begins h ≤ ends h + 1 ∧ ∀ n, sinceStop none h = some n → n ≤ 2 := by
  obtain ⟨d, hd, he⟩ := D.is
  have := is_le hd
  refine ⟨by omega, fun n hn => ?_⟩
  obtain ⟨m, _, h2⟩ := D.since n hn
  omega

theorem rest_still {h : List Ev} {s : State} {φ : Phase} (D : Disc h s φ) (hr : AtRest s) : Still s := by
  obtain ⟨d, hd, _⟩ := D.is
  refine ⟨hr.1, ?_⟩
  cases φ with
  | quiet => exact hd.2.1
  | delayed => exact hd.2.1
  | starting L =>
    have h1 := hd.2.2.1
    rcases hr.2 L with h2 | ⟨k, h2, _⟩ <;> rw [h1] at h2 <;> cases h2
  | live L K =>
    intro l
    by_cases e : l = L
    · subst e
      rcases hr.2 l with h2 | ⟨k, h2, h3⟩
      · exact Or.inl h2
      · refine Or.inr ⟨k, h2, h3, ?_⟩
        rcases hd.2.2.1 with h4 | h4 | h4 | h4 | h4 <;> rw [h4] at h2 <;> cases h2
        exact hd.2.2.2.2.2.1
    · exact hd.2.2.2.1 l e
  | stopped L K =>
    intro l
    by_cases e : l = L
    · subst e
      rcases hr.2 l with h2 | ⟨k, h2, h3⟩
      · exact Or.inl h2
      · refine Or.inr ⟨k, h2, h3, ?_⟩
        rcases hd.2.2.1 with h4 | h4 | h4 | h4 | h4 <;> rw [h4] at h2 <;> cases h2
        exact hd.2.2.2.2.2.1
    · exact hd.2.2.2.1 l e

/-- A still task in any phase is as in phase `quiet`. -/
theorem still_quiet {h : List Ev} {s : State} {φ : Phase} (D : Disc h s φ) (hr : Still s) :
    Is s 0 .quiet ∧ begins h = ends h := by
  obtain ⟨d, hd, he⟩ := D.is
  have h0 : ∀ L, inHandler s L = 0 := by
    intro L
    unfold inHandler
    rcases hr.2 L with h2 | ⟨k, h2, _⟩ <;> simp [h2]
  refine ⟨⟨hr.1, hr.2, rfl⟩, ?_⟩
  cases φ with
  | quiet => have := hd.2.2; omega
  | delayed => have := hd.2.2; omega
  | starting L => have := hd.2.2.2.2; omega
  | live L K => have := hd.2.2.2.2.2.2.2; rw [h0] at this; omega
  | stopped L K => have := hd.2.2.2.2.2.2.2; rw [h0] at this; omega

/-- Steps that leave goroutines and tickers alone. -/
theorem is_congr {s s' : State} (h1 : s'.loop = s.loop) (h2 : s'.nloop = s.nloop)
    (h3 : s'.ntk = s.ntk) (h4 : s'.ticker = s.ticker) (h5 : s'.delayed = s.delayed) (h6 : s'.tk = s.tk)
    (d : Nat) (φ : Phase) : Is s' d φ = Is s d φ := by
  cases φ <;> simp only [Is, Parked, Using, inHandler, h1, h2, h3, h4, h5, h6]

theorem leftIn_congr {s s' : State} (h1 : s'.loop = s.loop) (h6 : s'.tk = s.tk) (φ : Phase) :
    leftIn s' φ = leftIn s φ := by
  cases φ <;> simp only [leftIn, left, h1, h6]

theorem still_congr {s s' : State} (h1 : s'.loop = s.loop) (h3 : s'.ntk = s.ntk)
    (h5 : s'.delayed = s.delayed) (h6 : s'.tk = s.tk) : Still s' = Still s := by
  simp only [Still, Parked, h1, h3, h5, h6]

/-- A caller makes a step that does not touch goroutines or tickers. -/
theorem disc_client {h : List Ev} {s s' : State} {evs : List Ev} {φ φ' : Phase} {p : Nat} {v : CPc}
    (D : Disc h s φ) (hp : ∀ q, s.cl q ≠ .idle → q = p) (hcl : s'.cl = upd s.cl p v)
    (hl : s'.loop = s.loop) (hn : s'.nloop = s.nloop)
    (his : ∃ d, Is s' d φ' ∧ begins (h ++ evs) = ends (h ++ evs) + d)
    (hv : ClOk s' φ' v) (hts : TsOk s' φ' s'.tstate)
    (hsince : ∀ n, sinceStop none (h ++ evs) = some n → ∃ m, leftIn s' φ' = some m ∧ n + m ≤ 2) :
    Disc (h ++ evs) s' φ' := by
  have hidle : ∀ q, q ≠ p → s.cl q = .idle := by
    intro q hq
    by_cases e : s.cl q = .idle
    · exact e
    · exact absurd (hp q e) hq
  refine ⟨his, ?_, ?_, hts, ?_, hsince⟩
  · intro q
    rw [hcl, upd_apply]
    split
    · exact hv
    · rename_i hq; rw [hidle q hq]; trivial
  · intro q r hq hr
    rw [hcl, upd_apply] at hq hr
    split at hq
    · split at hr
      · omega
      · rename_i e1 e2; exact absurd (hidle r e2) hr
    · rename_i e1; exact absurd (hidle q e1) hq
  · rw [hl, hn]; exact D.off

end Braid.TickTask
