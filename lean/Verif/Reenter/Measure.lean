import Verif.Reenter.Inv

/-
The internal steps of reentrant calls come to an end: a measure that each of them decreases.
-/
namespace Braid.Reenter
open Spec

def sumTo (f : Nat → Nat) : Nat → Nat
  | 0 => 0
  | n + 1 => sumTo f n + f n

theorem sumTo_congr {f g : Nat → Nat} : ∀ {n : Nat}, (∀ c, c < n → f c = g c) → sumTo f n = sumTo g n
  | 0, _ => rfl
  | n + 1, h => by
    rw [sumTo, sumTo, sumTo_congr (n := n) fun c hc => h c (by omega), h n (by omega)]

theorem sumTo_upd {f g : Nat → Nat} {a : Nat} : ∀ {n : Nat}, a < n → (∀ c, c ≠ a → f c = g c) →
    sumTo f n + g a = sumTo g n + f a
  | 0, h, _ => absurd h (by omega)
  | n + 1, h, hne => by
    by_cases hn : a = n
    · subst hn
      have := sumTo_congr (f := f) (g := g) (n := a) fun c hc => hne c (by omega)
      simp only [sumTo]; omega
    · have := sumTo_upd (f := f) (g := g) (a := a) (n := n) (by omega) hne
      have := hne n (Ne.symm hn)
      simp only [sumTo]; omega

/-- How many internal steps a call may still cause. -/
def weight (x : Call) : Nat :=
  (match x.g1 with | .wait => 2 | .complete _ => 1 | .ended => 0) +
  (match x.g2 with | .complete _ => 1 | _ => 0) +
  (match x.cb1 with | .off => 5 | .stored => 4 | .ready => 4 | .ended => 0)

def loopWeight : LPc → Nat
  | .action _ _ => 2
  | .complete _ => 1
  | _ => 0

def total (call : Nat → Call) (n : Nat) : Nat := sumTo (fun c => weight (call c)) n

def measure (s : State) : Nat :=
  total s.call s.n + 3 * s.queue.length + loopWeight s.loop

theorem sum_call {call : Nat → Call} {c n : Nat} {x : Call} (hc : c < n) :
    total (upd call c x) n + weight (call c) = total call n + weight x := by
  have := sumTo_upd (f := fun d => weight (upd call c x d)) (g := fun d => weight (call d)) (a := c)
    hc (fun d hd => by simp [upd_of_ne _ _ hd])
  simpa [total] using this

theorem upd_upd {β : Type} (f : Nat → β) (a : Nat) (x y : β) : upd (upd f a x) a y = upd f a y := by
  funext d; simp only [upd_apply]; split <;> rfl

theorem measure_step {h : List Ev} {s s' : State} {a : Act} {evs : List Ev} (ha : InvA h s)
    (hint : Internal a) (hs : step s a = some (s', evs)) : measure s' < measure s := by
  have lt : ∀ c, (s.call c).cb1 ≠ .off ∨ (s.call c).g1 ≠ .ended ∨ (s.call c).g2 ≠ .ended → c < s.n := by
    intro c hc
    by_cases hlt : c < s.n
    · exact hlt
    · obtain ⟨h1, -, h3, h4, -⟩ := ha.unused c (by omega)
      simp [h1, h3, h4] at hc
  have hact := ha.action
  have hcom := ha.complete
  cases a with
  | then1 c =>
    have hc : c < s.n := by
      by_cases hlt : c < s.n
      · exact hlt
      · simp [step, hlt] at hs
    re_cases hs <;> have := fun x => sum_call (x := x) (call := s.call) (c := c) (n := s.n) hc <;>
      simp only [measure] <;> grind [weight]
  | g1 c ctx =>
    have hc : (s.call c).g1 ≠ .ended → c < s.n := fun h => lt c (.inr (.inl h))
    re_cases hs <;> have := fun x => sum_call (x := x) (call := s.call) (c := c) (n := s.n) (hc (by simp [*])) <;>
      simp only [measure, upd_upd, upd_same] <;> grind [weight]
  | g2 c =>
    have hc : (s.call c).g2 ≠ .ended → c < s.n := fun h => lt c (.inr (.inr h))
    re_cases hs <;> have := fun x => sum_call (x := x) (call := s.call) (c := c) (n := s.n) (hc (by simp [*])) <;>
      simp only [measure] <;> grind [weight]
  | push c =>
    have hc : (s.call c).cb1 ≠ .off → c < s.n := fun h => lt c (.inl h)
    re_cases hs <;> have := fun x => sum_call (x := x) (call := s.call) (c := c) (n := s.n) (hc (by simp [*])) <;>
      simp only [measure] <;> grind [weight]
  | select => re_cases hs <;> simp_all [measure, loopWeight] <;> omega
  | loop =>
    re_cases hs
    · rename_i c e hl
      have := fun x => sum_call (x := x) (call := s.call) (c := c) (n := s.n) (lt c (.inl (by simp [(hact _ _ hl).2])))
      simp only [measure] <;> grind [weight, loopWeight]
    · rename_i c e hl
      have := fun x => sum_call (x := x) (call := s.call) (c := c) (n := s.n) (lt c (.inl (by simp [(hact _ _ hl).2])))
      simp only [measure] <;> grind [weight, loopWeight]
    · rename_i c hl _ _ _
      simp_all [measure, loopWeight]
    · rename_i c hl _ _
      have := fun x => sum_call (x := x) (call := s.call) (c := c) (n := s.n) (lt c (.inl (by simp [hcom _ hl])))
      simp only [measure] <;> grind [weight, loopWeight]
  | _ => cases hint

end Braid.Reenter
