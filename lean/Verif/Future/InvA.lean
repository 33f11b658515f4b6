import Verif.Future.Trans

/-
Structural invariant of the future model: mutexes, callback goroutines, allocation.
-/
namespace Braid.Future
variable {V : Type}

/-- The future whose mutex a goroutine holds. -/
def Pc.inside : Pc V → Option Nat
  | .idle => none
  | .thenCheck f _ => some f
  | .thenLate f _ => some f
  | .thenNew f _ => some f
  | .thenAppend f _ => some f
  | .unlock f => some f
  | .compCheck f _ => some f
  | .compSet f _ => some f
  | .compClose f _ => some f
  | .compSpawn f _ => some f
  | .ready => none
  | .running => none
  | .joining => none

/-- States of a callback goroutine before its last `Complete`. -/
def Pc.task : Pc V → Bool
  | .ready => true
  | .running => true
  | .joining => true
  | _ => false

structure InvA (s : St V) : Prop where
  lk : ∀ t f, (s.pc t).inside = some f ↔ (s.fut f).lock = some t
  user : ∀ u, (s.pc (.inl u)).task = false
  tl : ∀ k, s.tasks.length ≤ k → s.pc (.inr k) = .idle
  fresh : ∀ f, s.nfut ≤ f → s.fut f = newFut V
  inb : ∀ t f, (s.pc t).inside = some f → f < s.nfut
  cbb : ∀ f r c, (r, c) ∈ (s.fut f).cbs → c < s.nfut
  restb : ∀ t f rest r c, s.pc t = .compSpawn f rest → (r, c) ∈ rest → c < s.nfut
  taskb : ∀ (k : Nat) (tk : Task V) (c : Nat), s.tasks[k]? = some tk → tk.child = some c → c < s.nfut

theorem alloc_eq {s : St V} (A : InvA s) : alloc s = { s with nfut := s.nfut + 1 } := by
  unfold alloc
  congr 1
  funext x
  by_cases h : x = s.nfut
  · subst h; rw [upd_same, A.fresh _ (Nat.le_refl _)]
  · rw [upd_of_ne _ _ h]

theorem invA_init : InvA (init V) := by
  constructor <;> simp [init, newFut, Pc.inside, Pc.task]

set_option linter.unusedSimpArgs false in
set_option maxHeartbeats 1000000 in
theorem invA_step {s s' : St V} {evs : List (Ev V)} (A : InvA s) (ht : Tr s s' evs) : InvA s' := by
  have hal := alloc_eq A
  obtain ⟨lk, user, tl, fresh, inb, cbb, restb, taskb⟩ := A
  have i1 : ∀ t f r, s.pc t = .thenAppend f r → f < s.nfut := fun t f r h => inb t f (by rw [h]; rfl)
  have i2 : ∀ t f, s.pc t = .unlock f → f < s.nfut := fun t f h => inb t f (by rw [h]; rfl)
  have i3 : ∀ t f v, s.pc t = .compSet f v → f < s.nfut := fun t f v h => inb t f (by rw [h]; rfl)
  have i4 : ∀ t f v, s.pc t = .compClose f v → f < s.nfut := fun t f v h => inb t f (by rw [h]; rfl)
  have i5 : ∀ t f l, s.pc t = .compSpawn f l → f < s.nfut := fun t f l h => inb t f (by rw [h]; rfl)
  cases ht
  case new => rw [hal]; constructor <;> grind
  case obs => constructor <;> assumption
  case thenNew => 
    rw [hal]
    constructor <;> simp only [setPc, setFut, spawn] <;> grind [upd_apply, Pc.inside, Pc.task]
  case thenAppend => 
    rw [hal]
    constructor <;> simp only [setPc, setFut, spawn] <;> grind [upd_apply, Pc.inside, Pc.task]
  all_goals
    constructor <;> simp only [setPc, setFut, spawn] <;> grind [upd_apply, Pc.inside, Pc.task]

end Braid.Future
