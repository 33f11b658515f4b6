import Verif.Live.Reach

/-
The actor in the map of its node is alive.
-/
namespace Braid.Live
open AddressBook Spec

variable {cfg : Nat → NodeCfg} {factory : Nat → String → Option Int} {n : Nat} {id ty : String}

/-- Which actor objects are in the map. -/
structure Objs (r : Register.State) : Prop where
  map : ∀ m x i, Register.get (r.map m) x = some i → (r.inst i).node = m ∧ (r.inst i).id = x ∧ i < r.next
  exit : ∀ g m x t i, r.pc g = .uExit m x t i → (r.inst i).node = m ∧ (r.inst i).id = x ∧ i < r.next
  ins : ∀ g m b i, r.pc g = .rInsert m b i → r.inst i = ⟨m, b.id, b.ty⟩ ∧ i < r.next

theorem objs_step {r r' : Register.State} {a : Register.Act} {e : List Register.Ev} (h : Objs r)
    (hs : Register.step cfg factory r a = some (r', e)) : Objs r' := by
  obtain ⟨h1, h2, h3⟩ := h
  rg_cases hs
  all_goals constructor
  all_goals simp only [upd_apply]
  all_goals grind

/-- The operation creates or removes the actor. -/
def Chg (n : Nat) (id : String) (p : Register.Pc) : Prop :=
  (∃ b, p.op = some (.reg n b) ∧ b.id = id) ∨ ∃ t, p.op = some (.unreg n id t)

/-- The actor in the map is alive until its `Exit`. -/
structure Liv (n : Nat) (id : String) (r : Register.State) : Prop where
  map : ∀ i, Register.get (r.map n) id = some i → r.alive i = true ∨ ∃ g t, r.pc g = .uDel n id t
  exit : ∀ g t i, r.pc g = .uExit n id t i → Register.get (r.map n) id = some i
  ins : ∀ g b i, r.pc g = .rInsert n b i → b.id = id → r.alive i = true

theorem liv_start {r r' : Register.State} {g : Nat} {o : Register.Op} {e : List Register.Ev} (h : Liv n id r)
    (hs : Register.step cfg factory r (.start g o) = some (r', e)) : Liv n id r' := by
  obtain ⟨h1, h2, h3⟩ := h
  rg_cases hs
  all_goals constructor
  all_goals simp only [upd_apply]
  all_goals grind

theorem liv_reg {r r' : Register.State} {g : Nat} {a : Register.Act} {e : List Register.Ev} (h : Liv n id r)
    (ho : Objs r) (hx : ∀ g g', Chg n id (r.pc g) → Chg n id (r.pc g') → g = g')
    (ha : a = .go g ∨ a = .fail g) (hs : Register.step cfg factory r a = some (r', e)) : Liv n id r' := by
  obtain ⟨h1, h2, h3⟩ := h
  obtain ⟨o1, o2, o3⟩ := ho
  have x1 : ∀ g t i, r.pc g = .uExit n id t i → Chg n id (r.pc g) := fun g t i h => .inr ⟨t, by rw [h]; rfl⟩
  have x2 : ∀ g t, r.pc g = .uDel n id t → Chg n id (r.pc g) := fun g t h => .inr ⟨t, by rw [h]; rfl⟩
  have x3 : ∀ g b i, r.pc g = .rInsert n b i → b.id = id → Chg n id (r.pc g) :=
    fun g b i h hb => .inl ⟨b, by rw [h]; rfl, hb⟩
  rcases ha with rfl | rfl
  all_goals
    rg_cases hs
    all_goals constructor
    all_goals simp only [upd_apply]
    all_goals first
      | grind
      | (rename_i m y t i hpc hal
         intro j hj
         have e1 := o2 g m y t i hpc
         have e2 := o1 n id j hj
         by_cases hji : j = i
         · subst hji
           refine .inr ⟨g, t, ?_⟩
           rw [if_pos rfl, e1.1.symm.trans e2.1, e1.2.1.symm.trans e2.2.1]
         · rcases h1 j hj with h | ⟨g', t', h⟩
           · exact .inl (by rw [if_neg hji]; exact h)
           · refine .inr ⟨g', t', ?_⟩
             rw [if_neg (by rintro rfl; rw [hpc] at h; cases h)]; exact h)

theorem liv_run {h : List Ev} {s : State} (hr : (sys cfg factory).Run h s) (ha : Apart n id ty h) :
    Objs s.r ∧ Liv n id s.r := by
  revert ha
  refine hr.invariant (P := fun h s => Apart n id ty h → Objs s.r ∧ Liv n id s.r) ?_ ?_
  · intro _
    exact ⟨⟨fun _ _ _ h => (nomatch h), fun _ _ _ _ _ h => (nomatch h), fun _ _ _ _ h => (nomatch h)⟩,
      ⟨fun _ h => (nomatch h), fun _ _ _ h => (nomatch h), fun _ _ _ h => (nomatch h)⟩⟩
  · intro h s a s' evs hr hi hs ha
    have ha' := apart_prefix ha
    have hi := hi ha'
    have hl := link_run hr
    have hex := ex_run hr ha'
    have hc : ∀ g, Chg n id (s.r.pc g) → ∃ o, cur s g = some o ∧ Changes n id o := by
      rintro g (⟨b, h, hb⟩ | ⟨t, h⟩)
      · exact ⟨_, cur_reg hl h, rfl, hb⟩
      · exact ⟨_, cur_unreg hl h, rfl, rfl⟩
    have hx : ∀ g g', Chg n id (s.r.pc g) → Chg n id (s.r.pc g') → g = g' := by
      intro g g' h1 h2
      obtain ⟨o, h3, h4⟩ := hc g h1
      obtain ⟨o', h5, h6⟩ := hc g' h2
      apply Classical.byContradiction
      intro hne
      exact (hex g g' o o' hne h3 h5 h4).1 h6
    have start : ∀ g o r' e, Register.step cfg factory s.r (.start g o) = some (r', e) → Objs r' ∧ Liv n id r' :=
      fun g o r' e h => ⟨objs_step hi.1 h, liv_start hi.2 h⟩
    cases step_rel hs with
    | @regStart g m b hc hp => exact start g (.reg m b) _ [.begin g (.reg m b)] (by simp [Register.step, hp])
    | @unregStart g m y t hc hp => exact start g (.unreg m y t) _ [.begin g (.unreg m y t)] (by simp [Register.step, hp])
    | callEmpty => exact hi
    | call => exact hi
    | reg hg hr' => exact ⟨objs_step hi.1 hr', liv_reg hi.2 hi.1 hx hg hr'⟩
    | @c g _ _ hc =>
      cases hc with
      | @clean m t u a w _ _ _ hp => exact start g (.clean m a.actorId w) _ [.begin g (.clean m a.actorId w)] (by simp [Register.step, hp])
      | _ => exact hi

/-- A registered actor is alive and in the map of its node. -/
theorem alive_run {h : List Ev} {s : State} (hr : (sys cfg factory).Run h s) (ha : Apart n id ty h)
    (hg : Registered n id h) : ∃ i, Register.get (s.r.map n) id = some i ∧ s.r.alive i = true ∧
      (s.r.inst i).node = n ∧ (s.r.inst i).id = id := by
  have hh := here_run hr ha hg
  have hl := liv_run hr ha
  cases hx : Register.get (s.r.map n) id with
  | none => exact absurd hx hh.1
  | some i =>
    have ho := hl.1.map n id i hx
    refine ⟨i, rfl, ?_, ho.1, ho.2.1⟩
    rcases hl.2.map i hx with h | ⟨g, t, h⟩
    · exact h
    · exact absurd (cur_unreg (link_run hr) (by rw [h]; rfl)) (hh.2 g t)

end Braid.Live
