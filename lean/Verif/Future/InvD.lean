import Verif.Future.InvC

/-
Invariants of the future model: callback goroutines against the history; early and late `Then`.
-/
namespace Braid.Future
variable {V : Type}

/-- Some `Complete` call on `f` took the lock before `Then` call number `r` did. -/
def Late (h : List (Ev V)) (r f : Nat) : Prop :=
  ∃ t v, Before h (Ev.complete t f v) (Ev.then_ r f)

theorem late_append {h : List (Ev V)} {e : Ev V} {r f : Nat} :
    Late (h ++ [e]) r f ↔ Late h r f ∨ (e = .then_ r f ∧ ∃ t v, Ev.complete t f v ∈ h) := by
  unfold Late
  constructor
  · rintro ⟨t, v, hb⟩
    rcases before_append_singleton.1 hb with h1 | ⟨h1, h2⟩
    · exact Or.inl ⟨t, v, h1⟩
    · exact Or.inr ⟨h2.symm, t, v, h1⟩
  · rintro (⟨t, v, h1⟩ | ⟨rfl, t, v, h1⟩)
    · exact ⟨t, v, before_append_singleton.2 (Or.inl h1)⟩
    · exact ⟨t, v, before_append_singleton.2 (Or.inr ⟨h1, rfl⟩)⟩

theorem Late.mem {h : List (Ev V)} {r f : Nat} (hl : Late h r f) : Ev.then_ r f ∈ h := by
  obtain ⟨t, v, hb⟩ := hl
  exact hb.mem_right

structure InvE (h : List (Ev V)) (w : Nat → View V) (tasks : List (Task V)) : Prop where
  e1 : ∀ f r, (w f).pc = .thenCheck f r → (Late h r f ↔ (w f).fut.done = true)
  e2 : ∀ f r, (w f).pc = .thenLate f r → Late h r f
  e3 : ∀ f r, (w f).pc = .thenAppend f r → ¬ Late h r f
  e4 : ∀ f r c, (r, c) ∈ (w f).pend → ¬ Late h r f
  e5 : ∀ tk ∈ tasks, ∀ f, Ev.then_ tk.reg f ∈ h → (Late h tk.reg f ↔ tk.child = none)

theorem invE_init : InvE [] (view (init V)) [] := by
  constructor <;> simp [init, newFut, view, holder, View.pend]

set_option maxHeartbeats 4000000 in
theorem invE_step {h : List (Ev V)} {w w' : Nat → View V} {tasks tasks' : List (Task V)}
    {n n' m m' : Nat} {evs : List (Ev V)}
    (hc : ∀ f, (w f).fut.lock = none → ((∃ t v, Ev.complete t f v ∈ h) ↔ (w f).fut.done = true))
    (C : InvC h w tasks n m)
    (E : InvE h w tasks) (ht : TrV w tasks n m w' tasks' n' m' evs) :
    InvE (h ++ evs) w' tasks' := by
  have key : ∀ r f, Ev.then_ r f ∈ h → (Late (h ++ evs) r f ↔ Late h r f) := by
    intro r f hm
    have hr := C.c1 r f hm
    cases ht
    all_goals first
      | rw [List.append_nil]
      | (rw [late_append]; simp <;> omega)
  have c1 := C.c1
  have c1u := C.c1u
  have mem := @Late.mem V
  obtain ⟨e1, e2, e3, e4, e5⟩ := E
  have c3o : ∀ f r c, (r, c) ∈ (w f).pend → Ev.then_ r f ∈ h :=
    fun f r c hm => (C.c3 f r (List.mem_map.2 ⟨_, hm, rfl⟩)).1
  have c4o : ∀ f r, (w f).pc = .thenCheck f r → Ev.then_ r f ∈ h :=
    fun f r hp => (C.c4 f r (by rw [hp]; rfl)).1
  have c4o' : ∀ f r, (w f).pc = .thenLate f r → Ev.then_ r f ∈ h :=
    fun f r hp => (C.c4 f r (by rw [hp]; rfl)).1
  have c4o'' : ∀ f r, (w f).pc = .thenAppend f r → Ev.then_ r f ∈ h :=
    fun f r hp => (C.c4 f r (by rw [hp]; rfl)).1
  have c7e := C.c7e
  cases ht
  case thenLock f x hp hl hx =>
    have hln : Late (h ++ [Ev.then_ n f]) n f ↔ (w f).fut.done = true := by
      rw [late_append, ← hc f hl]
      constructor
      · rintro (h1 | ⟨_, h1⟩)
        · have := c1 _ _ (mem h1); omega
        · exact h1
      · exact fun h1 => Or.inr ⟨rfl, h1⟩
    clear hc C mem
    constructor <;> grind [upd_apply, View.pend]
  case compSpawn f r c rest v hp hv =>
    have hpend : (r, c) ∈ (w f).pend := by simp [View.pend, hp]
    have hth := c3o f r c hpend
    have hnl := e4 f r c hpend
    rw [List.append_nil] at *
    refine ⟨?_, ?_, ?_, ?_, ?_⟩
    · clear e5 c7e; grind [upd_apply]
    · clear e5 c7e; grind [upd_apply]
    · clear e5 c7e; grind [upd_apply]
    · clear e5 c7e; grind [upd_apply, View.pend]
    · intro tk htk g hg
      rcases List.mem_append.1 htk with h1 | h1
      · exact e5 tk h1 g hg
      · simp only [List.mem_singleton] at h1
        subst h1
        have := c1u _ _ _ hth hg
        subst this
        simp [hnl]
  all_goals
    clear hc C mem
    constructor <;> grind [upd_apply, View.pend]

end Braid.Future
