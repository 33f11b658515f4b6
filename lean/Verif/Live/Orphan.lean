import Verif.Live.After

/-
A live actor is in the map of its node, or about to be put there.
-/
namespace Braid.Live
open AddressBook Spec

variable {cfg : Nat → NodeCfg} {factory : Nat → String → Option Int} {n : Nat} {id ty : String}

/-- Live actors with the id. -/
structure Orph (n : Nat) (id : String) (r : Register.State) : Prop where
  live : ∀ i, r.alive i = true → (r.inst i).node = n → (r.inst i).id = id →
    i < r.next ∧ (Register.get (r.map n) id = some i ∨ ∃ g b, r.pc g = .rInsert n b i ∧ b.id = id)
  dead : ∀ g t, r.pc g = .uDel n id t → ∀ i, Register.get (r.map n) id = some i → r.alive i = false
  new : ∀ i, r.next ≤ i → r.alive i = false

theorem orph_start {r r' : Register.State} {g : Nat} {o : Register.Op} {e : List Register.Ev} (h : Orph n id r)
    (hs : Register.step cfg factory r (.start g o) = some (r', e)) : Orph n id r' := by
  obtain ⟨h1, h2, h3⟩ := h
  rg_cases hs
  all_goals constructor
  all_goals simp only [upd_apply]
  all_goals grind

theorem orph_reg {r r' : Register.State} {g : Nat} {a : Register.Act} {e : List Register.Ev} (h : Orph n id r)
    (ho : Objs r) (hv : Liv n id r) (hx : ∀ g g', Chg n id (r.pc g) → Chg n id (r.pc g') → g = g')
    (hm : ∀ g b i, r.pc g = .rInsert n b i → b.id = id → Register.get (r.map n) id = none)
    (ha : a = .go g ∨ a = .fail g) (hs : Register.step cfg factory r a = some (r', e)) : Orph n id r' := by
  obtain ⟨h1, h2, h3⟩ := h
  obtain ⟨o1, o2, o3⟩ := ho
  obtain ⟨v1, v2, v3⟩ := hv
  have x1 : ∀ g t i, r.pc g = .uExit n id t i → Chg n id (r.pc g) := fun g t i h => .inr ⟨t, by rw [h]; rfl⟩
  have x2 : ∀ g t, r.pc g = .uDel n id t → Chg n id (r.pc g) := fun g t h => .inr ⟨t, by rw [h]; rfl⟩
  have x3 : ∀ g b i, r.pc g = .rInsert n b i → b.id = id → Chg n id (r.pc g) :=
    fun g b i h hb => .inl ⟨b, by rw [h]; rfl, hb⟩
  have x4 : ∀ g b, r.pc g = .rBuild n b → b.id = id → Chg n id (r.pc g) :=
    fun g b h hb => .inl ⟨b, by rw [h]; rfl, hb⟩
  rcases ha with rfl | rfl
  all_goals
    rg_cases hs
    all_goals constructor
    all_goals simp only [upd_apply]
    all_goals grind

theorem orph_run {h : List Ev} {s : State} (hcfg : OwnAddress cfg n) (hr : (sys cfg factory).Run h s)
    (ho : Owned n id ty h) (ha : Apart n id ty h) : Orph n id s.r := by
  revert ho ha
  refine hr.invariant (P := fun h s => Owned n id ty h → Apart n id ty h → Orph n id s.r) ?_ ?_
  · intro _ _
    exact ⟨fun _ h => (nomatch h), fun _ _ h => (nomatch h), fun _ _ => rfl⟩
  · intro h s a s' evs hr hi hs ho ha
    have ho' := owned_prefix ho
    have ha' := apart_prefix ha
    have hi := hi ho' ha'
    have hl := link_run hr
    have hex := ex_run hr ha'
    have hv := liv_run hr ha'
    have hk := keep_run hcfg hr ho' ha'
    have hc : ∀ g, Chg n id (s.r.pc g) → ∃ o, cur s g = some o ∧ Changes n id o := by
      rintro g (⟨b, h, hb⟩ | ⟨t, h⟩)
      · exact ⟨_, cur_reg hl h, rfl, hb⟩
      · exact ⟨_, cur_unreg hl h, rfl, rfl⟩
    have hx : ∀ g g', Chg n id (s.r.pc g) → Chg n id (s.r.pc g') → g = g' := by
      intro g g' h1 h2
      obtain ⟨o, h3, h4⟩ := hc g h1
      obtain ⟨o', h5, h6⟩ := hc g' h2
      apply Classical.byContradiction
      intro hne
      exact (hex g g' o o' hne h3 h5 h4).1 h6
    have hm : ∀ g b i, s.r.pc g = .rInsert n b i → b.id = id → Register.get (s.r.map n) id = none :=
      fun g b i h hb => hk.lackR g (by rw [h]; exact ⟨rfl, hb⟩)
    rcases step_reg hs with h3 | ⟨g, o, e, h3⟩ | ⟨g, e, _, ⟨_, h3⟩ | ⟨_, h3⟩⟩
    · rw [h3]; exact hi
    · exact orph_start hi h3
    · exact orph_reg hi hv.1 hv.2 hx hm (.inl rfl) h3
    · exact orph_reg hi hv.1 hv.2 hx hm (.inr rfl) h3

/-- The actor is not in the map, and nobody is registering it. -/
structure Out (n : Nat) (id : String) (r : Register.State) : Prop where
  map : Register.get (r.map n) id = none
  regs : ∀ g m b, (r.pc g).op = some (.reg m b) → b.id ≠ id

theorem out_go {r r' : Register.State} {g : Nat} {a : Register.Act} {e : List Register.Ev}
    (h : Out n id r) (ha : a = .go g ∨ a = .fail g)
    (hs : Register.step cfg factory r a = some (r', e)) : Out n id r' := by
  have hp := puts ha hs
  obtain ⟨hpc, hop⟩ := reg_op ha hs
  refine ⟨?_, ?_⟩
  · cases hp with
    | no h1 => rw [h1]; exact h.map
    | put m b i h1 _ h2 =>
      rw [h2]
      split
      · next hc => exact absurd hc.2.symm (h.regs g m b (by rw [h1]; rfl))
      · exact h.map
    | del m y t h1 h2 =>
      rw [h2]
      split
      · rfl
      · exact h.map
  · intro x m b hx
    by_cases hg : x = g
    · subst hg
      rcases hop with h1 | h1
      · rw [h1.1] at hx; exact h.regs x m b hx
      · rw [h1.1] at hx; cases hx
    · rw [hpc x hg] at hx; exact h.regs x m b hx

theorem out_step {s s' : State} {evs : List Ev} (h : Out n id s.r) (hs : Step cfg factory s s' evs)
    (ho : Owned n id ty evs) (hst : Still n id evs) : Out n id s'.r := by
  have regs : ∀ g p, s.r.pc g = .idle → (∀ m b, p.op = some (.reg m b) → b.id ≠ id) →
      Out n id { s.r with pc := upd s.r.pc g p } := by
    intro g p _ hp
    refine ⟨h.map, fun x m b hx => ?_⟩
    dsimp only at hx
    rw [upd_apply] at hx
    split at hx
    · exact hp m b hx
    · exact h.regs x m b hx
  cases hs with
  | @regStart g m b hc hp =>
    refine regs g _ hp ?_
    intro m' b' hx hb
    cases hx
    have := ho _ (List.mem_singleton.2 rfl) _ rfl hb
    rw [this.1] at hst
    exact hst _ (List.mem_singleton.2 rfl) b hb rfl
  | @unregStart g m y t hc hp => exact regs g _ hp (fun _ _ hx => by cases hx)
  | reg ha hr => exact out_go h ha hr
  | callEmpty => exact h
  | call => exact h
  | @c g _ _ hc =>
    cases hc with
    | @clean m t u a w _ _ _ hp => exact regs g _ hp (fun _ _ hx => by cases hx)
    | _ => exact h

/-- Where `Unregister` returns, it has removed the actor from the map. -/
theorem finish_miss {s : State} {r : Register.State} {g : Nat} {t : String} {a : Register.Act}
    {e : List Register.Ev} {res : Register.Res} (hsh : Shape s) (hop : (s.r.pc g).op = some (.unreg n id t))
    (ha : a = .go g ∨ a = .fail g) (hst : Register.step cfg factory s.r a = some (r, e))
    (hf : .finish g res ∈ e) (hres : res ≠ .panic) : missPc n id (s.r.pc g) ∧ r.map = s.r.map := by
  have h1 := hsh.uget g
  have h2 := hsh.upipe2 g
  have h3 := hsh.uidmap g
  rcases ha with rfl | rfl
  all_goals
    rg_cases hst
    all_goals first
      | (simp at hf; done)
      | (simp only [List.mem_singleton, Register.Ev.finish.injEq, true_and] at hf; exact absurd hf hres)
      | (rename_i hpc; rw [hpc] at hop; cases hop; done)
      | (refine ⟨?_, rfl⟩; grind [Register.Pc.op, missPc])

theorem out_run {h : List Ev} {s : State} (hcfg : OwnAddress cfg n) (hr : (sys cfg factory).Run h s)
    (ho : Owned n id ty h) (ha : Apart n id ty h) (hg : Returned n id h) : Out n id s.r := by
  revert ho ha hg
  refine hr.invariant (P := fun h s => Owned n id ty h → Apart n id ty h → Returned n id h → Out n id s.r) ?_ ?_
  · rintro _ _ ⟨pre, g, r, t, post, h, _⟩
    simp at h
  · rintro h s a s' evs hr hi hs ho ha ⟨pre, g, res, t, post, he, hres, hm, hu⟩
    have ha' := apart_prefix ha
    have ho' := owned_prefix ho
    have hst := step_rel hs
    have now : ∀ l, pre = h ++ l → evs = l ++ .reg (.finish g res) :: post → Out n id s'.r := by
      intro l h1 h2
      cases hst with
      | regStart => rcases l with _ | ⟨_, _ | _⟩ <;> simp at h2
      | unregStart => rcases l with _ | ⟨_, _ | _⟩ <;> simp at h2
      | callEmpty => rcases l with _ | ⟨_, _ | ⟨_, _ | _⟩⟩ <;> simp at h2
      | call => rcases l with _ | ⟨_, _ | _⟩ <;> simp at h2
      | c hc => cases hc <;> (rcases l with _ | ⟨_, _ | _⟩ <;> simp at h2)
      | @reg g' a' r e hx hr2 =>
        have hf : Ev.reg (.finish g res) ∈ e.map Ev.reg := by rw [h2]; simp
        obtain ⟨y, hy, hy'⟩ := List.mem_map.1 hf
        cases hy'
        obtain ⟨hoth, hq | ⟨hq1, hq2, res', rfl⟩⟩ := reg_op hx hr2
        · obtain ⟨i, h | ⟨_, h⟩⟩ := hq.2.2 _ hy <;> cases h
        · cases List.mem_singleton.1 hy
          have hl0 : l = [] := by
            cases l with
            | nil => rfl
            | cons z l => simp at h2
          subst hl0
          rw [List.append_nil] at h1; subst h1
          have hc := (active_iff hr g _).1 hm
          have hop : (s.r.pc g).op = some (.unreg n id t) := by
            unfold cur at hc
            split at hc
            · cases hc
            · split at hc
              all_goals first | (cases hc; assumption) | cases hc
          have hk := keep_run hcfg hr ho' ha'
          have hsd := side_run hr ho' ha'
          obtain ⟨hmiss, hmap⟩ := finish_miss hsd.shape hop hx hr2 hy hres
          refine ⟨by rw [hmap]; exact hk.lackR g hmiss, fun x m b hxb hb => ?_⟩
          by_cases hgx : x = g
          · subst hgx; rw [hq1] at hxb; cases hxb
          · rw [hoth x hgx] at hxb
            have hm' := hsd.own x m b hxb hb
            rw [hm'.1] at hxb
            exact (hsd.ex g x _ _ (fun h => hgx h.symm) hc (cur_reg hsd.link hxb) ⟨rfl, rfl⟩).1 ⟨rfl, hb⟩
    rcases List.append_eq_append_iff.1 he with ⟨l, h1, h2⟩ | ⟨l, h1, h2⟩
    · exact now l h1 h2
    · rcases l with _ | ⟨y, l⟩
      · exact now [] (by simpa using h1.symm) (by simpa using h2.symm)
      · cases h2
        have hh := hi ho' ha' ⟨pre, g, res, t, l, h1, hres, hm, fun e he => hu e (List.mem_append_left _ he)⟩
        exact out_step hh hst (owned_right ho) (fun e he => hu e (List.mem_append_right _ he))

/-- No actor with the id is alive. -/
theorem dead_run {h : List Ev} {s : State} (hcfg : OwnAddress cfg n) (hr : (sys cfg factory).Run h s)
    (ho : Owned n id ty h) (ha : Apart n id ty h) (hw : Out n id s.r) (i : Nat)
    (h1 : (s.r.inst i).node = n) (h2 : (s.r.inst i).id = id) : s.r.alive i = false := by
  cases hal : s.r.alive i with
  | false => rfl
  | true =>
    rcases (orph_run hcfg hr ho ha).live i hal h1 h2 with ⟨_, h | ⟨g, b, h, hb⟩⟩
    · rw [hw.map] at h; cases h
    · exact absurd hb (hw.regs g n b (by rw [h]; rfl))

end Braid.Live
