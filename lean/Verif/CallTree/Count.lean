import Verif.CallTree.Inv

/-
The counters of a wait group are the number of messages between `Add` and `Done`.
-/
namespace Braid.CallTree
open Spec

/-- The message has been added to the counter and not yet subtracted. -/
def hold1 (x : Op) : Bool :=
  match x.cpc, x.mpc with
  | .add2, _ => true
  | .push, _ => true
  | _, .queued => true
  | _, .handling => true
  | _, .rel1 => true
  | _, _ => false

/-- The same for the `sync.WaitGroup`. -/
def hold2 (x : Op) : Bool :=
  match x.cpc, x.mpc with
  | .push, _ => true
  | _, .queued => true
  | _, .handling => true
  | _, .rel1 => true
  | _, .rel2 => true
  | _, _ => false

def one (f : Op → Bool) (g : Nat) (x : Op) : Nat := if x.grp = g ∧ f x = true then 1 else 0

def tot (f : Op → Bool) (op : Nat → Op) (g : Nat) : Nat → Nat
  | 0 => 0
  | n + 1 => tot f op g n + one f g (op n)

theorem tot_congr {f : Op → Bool} {op op' : Nat → Op} {g : Nat} : ∀ {n : Nat},
    (∀ c, c < n → op c = op' c) → tot f op g n = tot f op' g n
  | 0, _ => rfl
  | n + 1, h => by
    rw [tot, tot, tot_congr (n := n) fun c hc => h c (by omega), h n (by omega)]

theorem tot_upd {f : Op → Bool} {op : Nat → Op} {g c : Nat} {x : Op} : ∀ {n : Nat}, c < n →
    tot f (upd op c x) g n + one f g (op c) = tot f op g n + one f g x
  | 0, h => absurd h (by omega)
  | n + 1, h => by
    by_cases hn : c = n
    · subst hn
      have := tot_congr (f := f) (g := g) (op := upd op c x) (op' := op) (n := c)
        fun d hd => upd_of_ne _ _ (by omega)
      simp only [tot, upd_same]; omega
    · have := tot_upd (f := f) (op := op) (g := g) (c := c) (x := x) (n := n) (by omega)
      simp only [tot, upd_of_ne op x (Ne.symm hn)]; omega

theorem tot_new {f : Op → Bool} {op : Nat → Op} {g n : Nat} {x : Op} :
    tot f (upd op n x) g (n + 1) = tot f op g n + one f g x := by
  rw [tot, upd_same, tot_congr (op' := op)]
  intro c hc; exact upd_of_ne _ _ (by omega)

theorem tot_zero {f : Op → Bool} {op : Nat → Op} {g : Nat} : ∀ {n : Nat}, tot f op g n = 0 →
    ∀ c, c < n → (op c).grp = g → f (op c) = false
  | 0, _, c, hc, _ => absurd hc (by omega)
  | n + 1, h, c, hc, hg => by
    simp only [tot] at h
    by_cases hn : c = n
    · subst hn
      have : one f g (op c) = 0 := by omega
      simp only [one, hg, true_and] at this
      cases hf : f (op c) with
      | false => rfl
      | true => simp [hf] at this
    · exact tot_zero (n := n) (by omega) c (by omega) hg

theorem tot_fresh {f : Op → Bool} {op : Nat → Op} {g : Nat} : ∀ {n : Nat},
    (∀ c, c < n → (op c).grp ≠ g) → tot f op g n = 0
  | 0, _ => rfl
  | n + 1, h => by
    rw [tot, tot_fresh (n := n) fun c hc => h c (by omega)]
    simp [one, h n (by omega)]

structure InvC (s : State) : Prop where
  cnt : ∀ g, s.cnt g = (tot hold1 s.op g s.n : Nat)
  wg : ∀ g, s.wg g = (tot hold2 s.op g s.n : Nat)

theorem invC_step {s s' : State} {a : Act} {evs : List Ev} (hi : Inv s) (hc : InvC s)
    (hs : step s a = some (s', evs)) : InvC s' := by
  have ok := hi.ok
  obtain ⟨c1, c2⟩ := hc
  have up : ∀ (f : Op → Bool) (g c : Nat) (x : Op), c < s.n →
    tot f (upd s.op c x) g s.n + one f g (s.op c) = tot f s.op g s.n + one f g x :=
    fun f g c x hc => tot_upd hc
  cases a with
  | begin t k a g w =>
    simp only [step] at hs
    split at hs
    case isFalse => cases hs
    rename_i hc
    cases hs
    constructor <;> intro g' <;> simp only [tot_new]
    · rw [c1]; simp only [one, hold1]; grind
    · rw [c2]; simp only [one, hold2]; grind
  | go c r =>
    have e1 := (ok c).early
    ct_cases hs <;> constructor <;> intro g' <;> grind [upd_apply, one, hold1, hold2, CPc.early]
  | expire c =>
    ct_cases hs <;> constructor <;> intro g' <;> grind [upd_apply, one, hold1, hold2]
  | outer c b =>
    ct_cases hs <;> constructor <;> intro g' <;> grind [upd_apply, one, hold1, hold2]
  | inner c =>
    ct_cases hs <;> constructor <;> intro g' <;> grind [upd_apply, one, hold1, hold2]
  | take a =>
    have q1 := hi.q.queue a
    have q2 := hi.q.queueLt a
    ct_cases hs <;> constructor <;> intro g' <;> grind [upd_apply, one, hold1, hold2]
  | finish a =>
    have q1 := hi.q.busyLt a
    ct_cases hs <;> constructor <;> intro g' <;> grind [upd_apply, one, hold1, hold2]
  | release a =>
    have q1 := hi.q.busyLt a
    have e1 := fun m => (ok m).early
    ct_cases hs <;> constructor <;> intro g' <;> grind [upd_apply, one, hold1, hold2, CPc.early]
  | setErr w => ct_cases hs; exact ⟨c1, c2⟩

theorem invC_run {h : List Ev} {s : State} (hr : sys.Run h s) : InvC s :=
  hr.invariant (P := fun _ s => InvC s) (by constructor <;> intro g <;> rfl)
    fun _ _ _ _ _ hr hi hs => invC_step (inv_run hr) hi hs

end Braid.CallTree
