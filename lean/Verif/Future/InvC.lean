import Verif.Future.InvB

/-
Invariant of the future model: every registration is in exactly one place; what `Then` returned.
-/
namespace Braid.Future
variable {V : Type}

/-- The registrations that the mutex holder (or the next `Complete`) still has to start. -/
def View.pend (x : View V) : List (Nat × Nat) :=
  match x.pc with
  | .compSpawn _ rest => rest
  | _ => x.fut.cbs

/-- The registration that the mutex holder is about to place. -/
def Pc.placing : Pc V → Option Nat
  | .thenCheck _ r => some r
  | .thenLate _ r => some r
  | .thenAppend _ r => some r
  | _ => none

/-- The registration whose `Then` call has not yet made its future. -/
def Pc.making : Pc V → Option Nat
  | .thenCheck _ r => some r
  | .thenLate _ r => some r
  | .thenAppend _ r => some r
  | .thenNew _ r => some r
  | _ => none

def Pc.spawning : Pc V → Bool
  | .compSpawn _ _ => true
  | _ => false

structure InvC (h : List (Ev V)) (w : Nat → View V) (tasks : List (Task V)) (n m : Nat) : Prop where
  c1 : ∀ r f, Ev.then_ r f ∈ h → r < n
  c1u : ∀ r f f', Ev.then_ r f ∈ h → Ev.then_ r f' ∈ h → f = f'
  c3 : ∀ f r, r ∈ (w f).pend.map Prod.fst → Ev.then_ r f ∈ h ∧ r ∉ tasks.map Task.reg
  c3n : ∀ f, ((w f).pend.map Prod.fst).Nodup
  c4 : ∀ f r, (w f).pc.placing = some r → Ev.then_ r f ∈ h ∧ r ∉ tasks.map Task.reg ∧
    r ∉ (w f).pend.map Prod.fst
  c6 : (tasks.map Task.reg).Nodup
  c7 : ∀ tk ∈ tasks, ∀ f, Ev.then_ tk.reg f ∈ h → (w f).fut.result = some tk.arg ∧
    (w f).fut.done = true
  c7e : ∀ tk ∈ tasks, ∃ f, Ev.then_ tk.reg f ∈ h
  c8 : ∀ f, (w f).fut.done = true → (w f).pc.spawning = false → (w f).fut.cbs = []
  c9 : ∀ f, (w f).pc.spawning = true → (w f).fut.done = true
  c2 : ∀ r f, Ev.then_ r f ∈ h → r ∈ tasks.map Task.reg ∨ r ∈ (w f).pend.map Prod.fst ∨
    (w f).pc.placing = some r

/-- What `Then` returned. -/
structure InvK (h : List (Ev V)) (w : Nat → View V) (tasks : List (Task V)) (n m : Nat) : Prop where
  c1 : ∀ r f, Ev.then_ r f ∈ h → r < n
  c1u : ∀ r f f', Ev.then_ r f ∈ h → Ev.then_ r f' ∈ h → f = f'
  k1 : ∀ r c, Ev.child r c ∈ h → c < m ∧ ∃ f, Ev.then_ r f ∈ h
  k2 : ∀ r c c', Ev.child r c ∈ h → Ev.child r c' ∈ h → c = c'
  k3 : ∀ r r' c, Ev.child r c ∈ h → Ev.child r' c ∈ h → r = r'
  k4 : ∀ f r, (w f).pc.making = some r → Ev.then_ r f ∈ h
  k4' : ∀ f r c, (w f).pc.making = some r → Ev.child r c ∉ h
  k5 : ∀ f r c, (r, c) ∈ (w f).pend → Ev.child r c ∈ h
  k6 : ∀ tk c, tk ∈ tasks → tk.child = some c → Ev.child tk.reg c ∈ h

theorem invC_init : InvC [] (view (init V)) [] 0 0 := by
  constructor <;> simp [init, newFut, view, holder, Pc.placing, Pc.spawning, View.pend]

theorem invK_init : InvK [] (view (init V)) [] 0 0 := by
  constructor <;> simp [init, newFut, view, holder, View.pend, Pc.making]

set_option maxHeartbeats 4000000 in
theorem invC_step {h : List (Ev V)} {w w' : Nat → View V} {tasks tasks' : List (Task V)}
    {n n' m m' : Nat} {evs : List (Ev V)}
    (h1 : ∀ f r, (w f).pc = .thenLate f r → (w f).fut.done = true)
    (h2 : ∀ f r, (w f).pc = .thenAppend f r → (w f).fut.done = false)
    (h3 : ∀ f v, (w f).pc = .compSet f v → (w f).fut.done = false)
    (C : InvC h w tasks n m) (ht : TrV w tasks n m w' tasks' n' m' evs) :
    InvC (h ++ evs) w' tasks' n' m' := by
  obtain ⟨c1, c1u, c3, c3n, c4, c6, c7, c7e, c8, c9, c2⟩ := C
  cases ht
  all_goals
    (try simp only [List.append_nil] at *)
    constructor <;> first | assumption | grind [upd_apply, Pc.placing, Pc.spawning, View.pend]

set_option maxHeartbeats 4000000 in
theorem invK_step {h : List (Ev V)} {w w' : Nat → View V} {tasks tasks' : List (Task V)}
    {n n' m m' : Nat} {evs : List (Ev V)}
    (K : InvK h w tasks n m) (ht : TrV w tasks n m w' tasks' n' m' evs) :
    InvK (h ++ evs) w' tasks' n' m' := by
  obtain ⟨c1, c1u, k1, k2, k3, k4, k4', k5, k6⟩ := K
  cases ht
  all_goals
    (try simp only [List.append_nil] at *)
    constructor <;> first | assumption | grind [upd_apply, View.pend, Pc.making]

end Braid.Future
