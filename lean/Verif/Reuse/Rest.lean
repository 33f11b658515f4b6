import Verif.Lib.Total
import Verif.Reuse.Lemmas

/-
Every use of a wrapper comes to rest (helper lemmas): a potential that every step but a new call lowers.
-/
namespace Braid.Reuse
open Spec

def Pc.pot : Pc → Nat
  | .idle => 0
  | .mk _ => 20
  | .recv _ _ => 13
  | .add1 _ _ => 12
  | .add2 _ _ => 11
  | .push _ _ => 10
  | .ready _ => 5
  | .look _ => 4
  | .wait _ _ => 3

def Outer.pot : Outer → Nat
  | .off => 0
  | .blocked => 6
  | .sel => 2
  | .close => 1
  | .ended => 0

def Inner.pot : Inner → Nat
  | .off => 0
  | .start => 3
  | .parked => 2
  | .woke => 1
  | .closed => 0

def MPc.pot : MPc → Nat
  | .off => 0
  | .queued => 4
  | .handling => 3
  | .rel1 => 2
  | .rel2 => 1
  | .done => 0

def phi (s : State) : Nat :=
  (if s.crashed then 0 else 1) + s.pc.pot + total (fun c => (s.outer c).pot) s.n + total (fun c => (s.inner c).pot) s.n +
  total (fun c => (s.msg c).pot) s.n

/-- The call of the caller. -/
def Pc.lt (n : Nat) : Pc → Prop
  | .idle => True
  | .mk c => c < n
  | .recv c _ => c < n
  | .add1 c _ => c < n
  | .add2 c _ => c < n
  | .push c _ => c < n
  | .ready c => c < n
  | .look c => c < n
  | .wait c _ => c < n

structure Fin (s : State) : Prop where
  pc : s.pc.lt s.n
  outer : ∀ c, s.n ≤ c → s.outer c = .off
  inner : ∀ c, s.n ≤ c → s.inner c = .off
  msg : ∀ c, s.n ≤ c → s.msg c = .off

theorem total_le {f g : Nat → Nat} {n : Nat} (h : ∀ i, i < n → f i ≤ g i) : total f n ≤ total g n := by
  induction n with
  | zero => exact Nat.le_refl _
  | succ n ih =>
    simp only [total]
    have := ih (fun i hi => h i (by omega))
    have := h n (by omega)
    omega

theorem phi_step {s s' : State} {a : Act} {evs : List Ev} (hf : Fin s) (hs : step s a = some (s', evs)) :
    Fin s' ∧ (a = .call → phi s' ≤ phi s + 20) ∧ (a ≠ .call → phi s' + 1 ≤ phi s) := by
  obtain ⟨f1, f2, f3, f4⟩ := hf
  have ho := fun c v => total_upd s.outer Outer.pot c v s.n
  have hin := fun c v => total_upd s.inner Inner.pot c v s.n
  have hm := fun c v => total_upd s.msg MPc.pot c v s.n
  have lo : ∀ c, s.outer c ≠ .off → c < s.n := fun c h =>
    Nat.lt_of_not_le fun h1 => h (f2 c h1)
  have li : ∀ c, s.inner c ≠ .off → c < s.n := fun c h =>
    Nat.lt_of_not_le fun h1 => h (f3 c h1)
  have lm : ∀ c, s.msg c ≠ .off → c < s.n := fun c h =>
    Nat.lt_of_not_le fun h1 => h (f4 c h1)
  have uo : ∀ c v, c < s.n → ∀ d, s.n ≤ d → upd s.outer c v d = .off := fun c v h d hd => by
    rw [upd_of_ne _ _ (by omega)]; exact f2 d hd
  have ui : ∀ c v, c < s.n → ∀ d, s.n ≤ d → upd s.inner c v d = .off := fun c v h d hd => by
    rw [upd_of_ne _ _ (by omega)]; exact f3 d hd
  have um : ∀ c v, c < s.n → ∀ d, s.n ≤ d → upd s.msg c v d = .off := fun c v h d hd => by
    rw [upd_of_ne _ _ (by omega)]; exact f4 d hd
  have hcr : s.crashed = false := by
    cases h : s.crashed with
    | false => rfl
    | true => simp [step, h] at hs
  rw [step.eq_def, if_neg (by simp [hcr])] at hs
  cases a with
  | call =>
    refine ⟨?_, ?_, fun h => absurd rfl h⟩
    all_goals
      dsimp only at hs
      split at hs
      · rename_i hp
        split at hs <;> (
          simp only [Option.some.injEq, Prod.mk.injEq] at hs
          obtain ⟨rfl, rfl⟩ := hs
          first
          | (constructor <;> dsimp only
             · exact Nat.lt_succ_self _
             · intro c hc; exact f2 c (by omega)
             · intro c hc; exact f3 c (by omega)
             · intro c hc; exact f4 c (by omega))
          | (intro _
             simp only [phi, total, hp, Pc.pot, f2 s.n (Nat.le_refl _), f3 s.n (Nat.le_refl _), f4 s.n (Nat.le_refl _),
               Outer.pot, Inner.pot, MPc.pot]
             omega))
      · cases hs
  | go r =>
    refine ⟨?_, nofun, fun _ => ?_⟩
    all_goals
      dsimp only [stepGo] at hs
      cases hp : s.pc <;> rw [hp] at hs f1 <;> dsimp only at hs <;> simp only [Pc.lt] at f1
      case idle => cases hs
      case mk c =>
        simp only [Option.some.injEq, Prod.mk.injEq] at hs
        obtain ⟨rfl, rfl⟩ := hs
        first
        | exact ⟨f1, uo c _ f1, f3, f4⟩
        | (have := ho c .blocked f1
           simp only [phi, hp, Pc.pot, Outer.pot] at this ⊢
           omega)
      case recv c root =>
        cases r <;> simp only [if_true, Bool.false_eq_true, if_false, Option.some.injEq, Prod.mk.injEq] at hs <;>
          obtain ⟨rfl, rfl⟩ := hs <;>
          first
          | exact ⟨trivial, f2, f3, f4⟩
          | exact ⟨f1, f2, f3, f4⟩
          | (simp only [phi, hp, Pc.pot]; omega)
      case push c root =>
        cases root <;> simp only [if_true, Bool.false_eq_true, if_false, Option.some.injEq, Prod.mk.injEq] at hs <;>
          obtain ⟨rfl, rfl⟩ := hs <;>
          first
          | exact ⟨trivial, f2, f3, um c _ f1⟩
          | exact ⟨f1, f2, f3, um c _ f1⟩
          | (have := hm c .queued f1
             simp only [phi, hp, Pc.pot, MPc.pot] at this ⊢
             omega)
      case look c =>
        split at hs
        · simp only [Option.some.injEq, Prod.mk.injEq] at hs
          obtain ⟨rfl, rfl⟩ := hs
          first
          | exact ⟨f1, f2, f3, f4⟩
          | (simp only [phi, hp, Pc.pot]; omega)
        · cases hs
      case wait c d =>
        split at hs
        · simp only [Option.some.injEq, Prod.mk.injEq] at hs
          obtain ⟨rfl, rfl⟩ := hs
          first
          | exact ⟨trivial, f2, f3, f4⟩
          | (simp only [phi, hp, Pc.pot]; omega)
        · cases hs
      all_goals
        simp only [Option.some.injEq, Prod.mk.injEq] at hs
        obtain ⟨rfl, rfl⟩ := hs
        first
        | exact ⟨f1, f2, f3, f4⟩
        | (simp only [phi, hp, Pc.pot]; omega)
  | expire =>
    refine ⟨?_, nofun, fun _ => ?_⟩
    all_goals
      dsimp only at hs
      cases hp : s.pc <;> rw [hp] at hs <;> dsimp only at hs
      case wait c d =>
        simp only [Option.some.injEq, Prod.mk.injEq] at hs
        obtain ⟨rfl, rfl⟩ := hs
        first
        | exact ⟨trivial, f2, f3, f4⟩
        | (simp only [phi, hp, Pc.pot]; omega)
      all_goals cases hs
  | timeout c =>
    refine ⟨?_, nofun, fun _ => ?_⟩
    all_goals
      dsimp only at hs
      split at hs
      · rename_i hp
        have hl := lo c (by rw [hp]; decide)
        simp only [Option.some.injEq, Prod.mk.injEq] at hs
        obtain ⟨rfl, rfl⟩ := hs
        first
        | exact ⟨f1, uo c _ hl, f3, f4⟩
        | (have := ho c .close hl
           simp only [phi, hp, Outer.pot] at this ⊢
           omega)
      · cases hs
  | outer c =>
    refine ⟨?_, nofun, fun _ => ?_⟩
    all_goals
      dsimp only [stepOuter] at hs
      cases hp : s.outer c <;> rw [hp] at hs <;> dsimp only at hs
      case off => cases hs
      case ended => cases hs
      all_goals have hl := lo c (by rw [hp]; decide)
      case blocked =>
        split at hs
        · simp only [Option.some.injEq, Prod.mk.injEq] at hs
          obtain ⟨rfl, rfl⟩ := hs
          first
          | exact ⟨f1, uo c _ hl, ui c _ hl, f4⟩
          | (have h1 := ho c .sel hl
             have h2 := hin c .start hl
             simp only [phi, hp, Outer.pot, Inner.pot] at h1 h2 ⊢
             omega)
        · cases hs
      case sel =>
        split at hs
        · simp only [Option.some.injEq, Prod.mk.injEq] at hs
          obtain ⟨rfl, rfl⟩ := hs
          first
          | exact ⟨f1, uo c _ hl, f3, f4⟩
          | (have h1 := ho c .close hl
             simp only [phi, hp, Outer.pot] at h1 ⊢
             omega)
        · cases hs
      case close =>
        split at hs
        · split at hs
          · simp only [Option.some.injEq, Prod.mk.injEq] at hs
            obtain ⟨rfl, rfl⟩ := hs
            first
            | exact ⟨f1, f2, f3, f4⟩
            | (simp [phi, hcr]; omega)
          · simp only [Option.some.injEq, Prod.mk.injEq] at hs
            obtain ⟨rfl, rfl⟩ := hs
            first
            | exact ⟨f1, uo c _ hl, f3, f4⟩
            | (have h1 := ho c .ended hl
               simp only [phi, hp, Outer.pot] at h1 ⊢
               omega)
        · cases hs
  | inner c =>
    refine ⟨?_, nofun, fun _ => ?_⟩
    all_goals
      dsimp only [stepInner] at hs
      cases hp : s.inner c <;> rw [hp] at hs <;> dsimp only at hs
      case off => cases hs
      case parked => cases hs
      case closed => cases hs
      all_goals
        have hl := li c (by rw [hp]; decide)
        have h1 := hin c .closed hl
        have h2 := hin c .parked hl
        have e1 : Inner.pot .closed = 0 := rfl
        have e2 : Inner.pot .parked = 2 := rfl
        have e3 : Inner.pot .start = 3 := rfl
        have e4 : Inner.pot .woke = 1 := rfl
        rw [hp] at h1 h2
        split at hs <;> (
          simp only [Option.some.injEq, Prod.mk.injEq] at hs
          obtain ⟨rfl, rfl⟩ := hs
          first
          | exact ⟨f1, f2, ui c _ hl, f4⟩
          | exact ⟨f1, f2, f3, f4⟩
          | (simp only [phi] at h1 h2 ⊢
             omega)
          | (simp [phi, hcr]; omega))
  | actor c =>
    refine ⟨?_, nofun, fun _ => ?_⟩
    all_goals
      dsimp only [stepActor] at hs
      cases hp : s.msg c <;> rw [hp] at hs <;> dsimp only at hs
      case off => cases hs
      case done => cases hs
      all_goals
        have hl := lm c (by rw [hp]; decide)
        have h1 := hm c .handling hl
        have h2 := hm c .rel1 hl
        have h3 := hm c .rel2 hl
        have h4 := hm c .done hl
        have e1 : MPc.pot .queued = 4 := rfl
        have e2 : MPc.pot .handling = 3 := rfl
        have e3 : MPc.pot .rel1 = 2 := rfl
        have e4 : MPc.pot .rel2 = 1 := rfl
        have e5 : MPc.pot .done = 0 := rfl
        rw [hp] at h1 h2 h3 h4
        simp only [Option.some.injEq, Prod.mk.injEq] at hs
        obtain ⟨rfl, rfl⟩ := hs
      case rel2 =>
        first
        | (refine ⟨f1, f2, ?_, um c _ hl⟩
           intro d hd
           dsimp only
           split
           · simp [f3 d hd]
           · exact f3 d hd)
        | (have h5 : total (fun d => ((if s.wg = 1 then fun d => if s.inner d = .parked then .woke else s.inner d
               else s.inner : Nat → Inner) d).pot) s.n ≤ total (fun c => (s.inner c).pot) s.n := by
             apply total_le
             intro d _
             split
             · dsimp only
               split
               · rename_i h6; simp [h6, Inner.pot]
               · exact Nat.le_refl _
             · exact Nat.le_refl _
           simp only [phi] at h4 h5 ⊢
           omega)
      all_goals
        first
        | exact ⟨f1, f2, f3, um c _ hl⟩
        | (simp only [phi] at h1 h2 h3 h4 ⊢
           omega)

theorem fin_init : Fin init := ⟨trivial, fun _ _ => rfl, fun _ _ => rfl, fun _ _ => rfl⟩

theorem phi_exec {s s' : State} {as : List Act} {k : List Ev} (hf : Fin s) (he : sys.exec s as = some (s', k)) :
    as.length + phi s' ≤ 21 * as.count .call + phi s := by
  induction as generalizing s k with
  | nil => simp [Lts.exec] at he; obtain ⟨rfl, rfl⟩ := he; simp
  | cons a as ih =>
    simp only [Lts.exec] at he
    split at he
    · cases he
    · rename_i s1 e1 hs
      split at he
      · cases he
      · rename_i s2 e2 he2
        simp only [Option.some.injEq, Prod.mk.injEq] at he
        obtain ⟨rfl, rfl⟩ := he
        obtain ⟨h1, h2, h3⟩ := phi_step hf hs
        have := ih h1 he2
        by_cases ha : a = .call
        · subst ha
          have := h2 rfl
          simp only [List.length_cons, List.count_cons_self]
          omega
        · have := h3 ha
          rw [List.count_cons_of_ne ha]
          simp only [List.length_cons]
          omega

end Braid.Reuse
