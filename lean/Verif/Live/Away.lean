import Verif.Live.Gone

/-
An actor that was unregistered is gone until it is registered again.
-/
namespace Braid.Live
open AddressBook Spec

variable {cfg : Nat → NodeCfg} {factory : Nat → String → Option Int} {n : Nat} {id ty : String}

/-- Nothing is left of the actor, and nobody is registering it. -/
structure Away (cfg : Nat → NodeCfg) (n : Nat) (id ty : String) (r : Register.State) : Prop where
  ids : r.W.redis.ids id = none
  tys : record cfg n id ty ∉ r.W.redis.tys ty
  book : r.W.idmap n id = false
  map : Register.get (r.map n) id = none
  regs : ∀ g m b, (r.pc g).op = some (.reg m b) → b.id ≠ id

theorem away_go {r r' : Register.State} {g : Nat} {a : Register.Act} {e : List Register.Ev}
    (h : Away cfg n id ty r) (ha : a = .go g ∨ a = .fail g)
    (hs : Register.step cfg factory r a = some (r', e)) : Away cfg n id ty r' := by
  have hw := writes ha hs
  have hm := marks ha hs
  have hp := puts ha hs
  obtain ⟨hpc, hop⟩ := reg_op ha hs
  refine ⟨?_, ?_, ?_, ?_, ?_⟩
  · cases hw with
    | no h1 _ => rw [h1]; exact h.ids
    | hset m b h1 h2 _ =>
      rw [h2]; unfold AddressBook.set
      split
      · next hx => exact absurd hx.symm (h.regs g m b (by rw [h1]; rfl))
      · exact h.ids
    | sadd _ _ _ h1 _ => rw [h1]; exact h.ids
    | hdel o m a x w h1 h2 _ =>
      rw [h2]; unfold AddressBook.set
      split
      · rfl
      · exact h.ids
    | srem _ _ _ _ _ _ h1 _ => rw [h1]; exact h.ids
  · intro hx
    cases hw with
    | no _ h1 => exact h.tys (by rw [← h1]; exact hx)
    | hset _ _ _ _ h1 => exact h.tys (by rw [← h1]; exact hx)
    | sadd m b h1 h2 h3 =>
      rcases (h3 _ _).1 hx with h4 | ⟨h4, h5⟩
      · exact h.tys h4
      · exact h.regs g m b (by rw [h1]; rfl) (congrArg Addr.actorId h5).symm
    | hdel _ _ _ _ _ _ _ h1 => exact h.tys (by rw [← h1]; exact hx)
    | srem _ _ _ _ _ _ _ h1 => exact h.tys ((h1 _ _).1 hx).1
  · cases hm with
    | no h1 => rw [h1]; exact h.book
    | yes m b h1 h2 =>
      rw [h2]
      split
      · next hc => exact absurd hc.2.symm (h.regs g m b (by rw [h1]; rfl))
      · exact h.book
    | del o m y h1 h2 =>
      rw [h2]
      split
      · rfl
      · exact h.book
  · cases hp with
    | no h1 => rw [h1]; exact h.map
    | put m b i h1 _ h2 =>
      rw [h2]
      split
      · next hc => exact absurd hc.2.symm (h.regs g m b (by rw [h1]; rfl))
      · exact h.map
    | del m y t h1 h2 =>
      rw [h2]
      split
      · rfl
      · exact h.map
  · intro x m b hx
    by_cases hg : x = g
    · subst hg
      rcases hop with h1 | h1
      · rw [h1.1] at hx; exact h.regs x m b hx
      · rw [h1.1] at hx; cases hx
    · rw [hpc x hg] at hx; exact h.regs x m b hx

theorem away_step {s s' : State} {evs : List Ev} (h : Away cfg n id ty s.r) (hs : Step cfg factory s s' evs)
    (ho : Owned n id ty evs) (hst : Still n id evs) : Away cfg n id ty s'.r := by
  have regs : ∀ g p, s.r.pc g = .idle → (∀ m b, p.op = some (.reg m b) → b.id ≠ id) →
      Away cfg n id ty { s.r with pc := upd s.r.pc g p } := by
    intro g p _ hp
    refine ⟨h.ids, h.tys, h.book, h.map, fun x m b hx => ?_⟩
    dsimp only at hx
    rw [upd_apply] at hx
    split at hx
    · exact hp m b hx
    · exact h.regs x m b hx
  cases hs with
  | @regStart g m b hc hp =>
    refine regs g _ hp ?_
    intro m' b' hx hb
    cases hx
    have := ho _ (List.mem_singleton.2 rfl) _ rfl hb
    rw [this.1] at hst
    exact hst _ (List.mem_singleton.2 rfl) b hb rfl
  | @unregStart g m y t hc hp => exact regs g _ hp (fun _ _ hx => by cases hx)
  | reg ha hr => exact away_go h ha hr
  | callEmpty => exact h
  | call => exact h
  | @c g _ _ hc =>
    cases hc with
    | @clean m t u a w _ _ _ hp => exact regs g _ hp (fun _ _ hx => by cases hx)
    | _ => exact h

/-- When `Unregister` returns nil, and Redis did not fail, nothing is left of the actor. -/
theorem away_now {s : State} {r : Register.State} {g : Nat} {t : String}
    (hk : Keep cfg n id ty s) (hs : Side n id ty s) (ht : Tidy cfg n id ty s.r)
    {e : List Register.Ev} (hop : (s.r.pc g).op = some (.unreg n id t))
    (hst : Register.step cfg factory s.r (.go g) = some (r, e)) (hf : .finish g .ok ∈ e) :
    Away cfg n id ty r := by
  have hcur := cur_unreg hs.link hop
  -- nobody else is at work on the actor
  have alone : ∀ g', g' ≠ g → ¬ missPc n id (s.r.pc g') := by
    intro g' hg h
    obtain ⟨o, ho, h2⟩ := miss_touch hk hs (.inl h)
    have := hs.ex g g' _ o (fun h => hg h.symm) hcur ho ⟨rfl, rfl⟩
    rcases h2 with h2 | h2
    · exact this.1 h2
    · exact this.2 h2
  have hrem : ∀ g', Rem id (s.r.pc g') → missPc n id (s.r.pc g') := by
    rintro g' (⟨o, m, a, w, k, _, h⟩ | ⟨o, m, h⟩)
    · have := remover hk hs (g := g') (m := m) (o := o) (by rw [h]; rfl)
        ((hs.shape.upipe2 g' _ _ _ _ _ _ h).imp (fun h => ⟨w, h⟩) _root_.id)
      rw [h]; exact ⟨this, rfl⟩
    · have := remover hk hs (g := g') (m := m) (o := o) (by rw [h]; rfl) (hs.shape.uidmap g' _ _ _ h)
      rw [h]; exact ⟨this, rfl⟩
  have noReg : ∀ g' m b, (s.r.pc g').op = some (.reg m b) → b.id ≠ id := by
    intro g' m b h hb
    have hm := hs.own g' m b h hb
    rw [hm.1] at h
    by_cases hg : g' = g
    · subst hg; rw [hop] at h; cases h
    · exact (hs.ex g g' _ _ (fun h => hg h.symm) hcur (cur_reg hs.link h) ⟨rfl, rfl⟩).1 ⟨rfl, hb⟩
  -- where it was
  have key : (∃ w, s.r.pc g = .uGet (.unreg n id t) n id w ∧ s.r.W.redis.ids id = none ∧ r.W = s.r.W) ∨
      (s.r.pc g = .uIdmap (.unreg n id t) n id ∧ r.W = Register.setIdmap s.r.W n id false) := by
    have h1 := hs.shape.uget g
    have h2 := hs.shape.uidmap g
    rg_cases hst
    all_goals first
      | (simp at hf; done)
      | (rename_i hpc; rw [hpc] at hop; cases hop; done)
      | (rename_i o m x w hpc _ hids
         rw [hpc] at hop; cases hop
         rcases h1 _ _ _ _ hpc with h | ⟨_, h⟩ <;> cases h
         exact .inl ⟨w, hpc, hids, rfl⟩)
      | (rename_i o m x hpc
         rw [hpc] at hop; cases hop
         rcases h2 _ _ _ hpc with ⟨_, h⟩ | ⟨_, h⟩ <;> cases h
         exact .inr ⟨hpc, rfl⟩)
  have hmap : r.map = s.r.map := by
    rcases key with ⟨w, h, _⟩ | ⟨h, _⟩
    all_goals
      cases puts (.inl rfl) hst with
      | no h1 => exact h1
      | put m b i h1 _ _ => rw [h] at h1; cases h1
      | del m y t h1 _ => rw [h] at h1; cases h1
  have hmiss : missPc n id (s.r.pc g) := by
    rcases key with ⟨w, h, _⟩ | ⟨h, _⟩ <;> rw [h] <;> exact ⟨rfl, rfl⟩
  have hids : s.r.W.redis.ids id = none := by
    rcases key with ⟨w, _, h, _⟩ | ⟨h, _⟩
    · exact h
    · exact ht.gone g (.inr ⟨_, _, h⟩)
  have hred : r.W.redis = s.r.W.redis := by
    rcases key with ⟨w, _, _, h⟩ | ⟨_, h⟩ <;> rw [h]; rfl
  have hop' := reg_op (.inl rfl) hst
  refine ⟨by rw [hred]; exact hids, ?_, ?_, by rw [hmap]; exact hk.lackR g hmiss, ?_⟩
  · rw [hred]
    intro hx
    rcases ht.tys hx with h | ⟨y, o, m, w, h⟩
    · exact h hids
    · by_cases hg : y = g
      · subst hg
        rcases key with ⟨w, h1, _⟩ | ⟨h1, _⟩ <;> rw [h1] at h <;> cases h
      · exact alone y hg (hrem y (.inl ⟨_, _, _, _, _, Nat.le_refl _, h⟩))
  · rcases key with ⟨w, h0, _, h1⟩ | ⟨_, h1⟩
    · rw [h1]
      cases hb : s.r.W.idmap n id with
      | false => rfl
      | true =>
        rcases ht.book hb with h | ⟨y, h⟩
        · exact absurd hids h
        · by_cases hg : y = g
          · subst hg
            rw [h0] at h
            rcases h with ⟨_, _, _, _, _, _, h⟩ | ⟨_, _, h⟩ <;> cases h
          · exact absurd (hrem y h) (alone y hg)
    · rw [h1]; simp [Register.setIdmap]
  · intro x m b hx
    by_cases hg : x = g
    · subst hg
      rcases hop'.2 with h1 | h1
      · rw [h1.1, hop] at hx; cases hx
      · rw [h1.1] at hx; cases hx
    · rw [hop'.1 x hg] at hx; exact noReg x m b hx

theorem owned_right {h evs : List Ev} (hx : Owned n id ty (h ++ evs)) : Owned n id ty evs :=
  fun e he => hx e (List.mem_append_right _ he)

theorem away_run {h : List Ev} {s : State} (hcfg : OwnAddress cfg n) {bad : Register.Pc → Bool}
    (hbad : ∀ p, removing p = true → bad p = true)
    (hr : (sureSys cfg factory bad).Run h s) (ho : Owned n id ty h) (ha : Apart n id ty h)
    (hg : Unregistered n id h) : Away cfg n id ty s.r := by
  have hr0 := hr
  revert ho ha hg
  refine hr.invariant
    (P := fun h s => Owned n id ty h → Apart n id ty h → Unregistered n id h → Away cfg n id ty s.r) ?_ ?_
  · rintro _ _ ⟨pre, g, t, post, h, _⟩
    simp at h
  · rintro h s a s' evs hr hi hs ho ha ⟨pre, g, t, post, he, hm, hu⟩
    have ha' := apart_prefix ha
    have ho' := owned_prefix ho
    have hr' := sure_run hr
    obtain ⟨hs1, hs2⟩ := sure_step hs
    have hst := step_rel hs1
    have hl := link_run hr'
    have now : ∀ l, pre = h ++ l → evs = l ++ .reg (.finish g .ok) :: post → Away cfg n id ty s'.r := by
      intro l h1 h2
      cases hst with
      | regStart => rcases l with _ | ⟨_, _ | _⟩ <;> simp at h2
      | unregStart => rcases l with _ | ⟨_, _ | _⟩ <;> simp at h2
      | callEmpty => rcases l with _ | ⟨_, _ | ⟨_, _ | _⟩⟩ <;> simp at h2
      | call => rcases l with _ | ⟨_, _ | _⟩ <;> simp at h2
      | c hc => cases hc <;> (rcases l with _ | ⟨_, _ | _⟩ <;> simp at h2)
      | @reg g' a' r e hx hr2 =>
        have hf : Ev.reg (.finish g .ok) ∈ e.map Ev.reg := by rw [h2]; simp
        obtain ⟨y, hy, hy'⟩ := List.mem_map.1 hf
        cases hy'
        obtain ⟨hoth, hq | ⟨hq1, hq2, res, rfl⟩⟩ := reg_op hx hr2
        · obtain ⟨i, h | ⟨_, h⟩⟩ := hq.2.2 _ hy <;> cases h
        · cases List.mem_singleton.1 hy
          have hl0 : l = [] := by
            cases l with
            | nil => rfl
            | cons z l => simp at h2
          subst hl0
          rw [List.append_nil] at h1; subst h1
          have hc := (active_iff hr' g _).1 hm
          have hop : (s.r.pc g).op = some (.unreg n id t) := by
            unfold cur at hc
            split at hc
            · cases hc
            · split at hc
              all_goals first | (cases hc; assumption) | cases hc
          have hk := keep_run hcfg hr' ho' ha'
          have hsd := side_run hr' ho' ha'
          have ht := tidy_run hcfg hbad hr ho' ha'
          rcases step_reg hs1 with h3 | ⟨g2, o, e, h3⟩ | ⟨g2, e, he2, ⟨_, h3⟩ | ⟨he3, h3⟩⟩
          · -- a step of `g` changes its program counter
            have hpc : r.pc = s.r.pc := congrArg Register.State.pc h3
            rw [hpc] at hq1; exact absurd hq1 hq2
          · -- `g` is not idle any more, or another goroutine starts
            exfalso
            have h4 : r.pc g = .idle := hq1
            rg_cases h3
            all_goals
              rename_i hpc _
              simp only [upd_apply] at h4
              split at h4
              · cases h4
              · exact hq2 h4
          · have hfe : .finish g .ok ∈ e := by
              have : Ev.reg (.finish g .ok) ∈ e.map Ev.reg := by rw [← he2]; simp
              obtain ⟨y, hy, hy'⟩ := List.mem_map.1 this
              cases hy'; exact hy
            have hgg : g2 = g := by
              rcases (reg_op (.inl rfl) h3).2 with h4 | ⟨_, _, res, h4⟩
              · obtain ⟨i, h | ⟨_, h⟩⟩ := h4.2.2 _ hfe <;> cases h
              · rw [h4] at hfe; cases List.mem_singleton.1 hfe; rfl
            subst hgg
            exact away_now hk hsd ht hop h3 hfe
          · have hfe : .finish g .ok ∈ e := by
              have : Ev.reg (.finish g .ok) ∈ e.map Ev.reg := by rw [← he2]; simp
              obtain ⟨y, hy, hy'⟩ := List.mem_map.1 this
              cases hy'; exact hy
            have hgg : g2 = g := by
              rcases (reg_op (.inr rfl) h3).2 with h4 | ⟨_, _, res, h4⟩
              · obtain ⟨i, h | ⟨_, h⟩⟩ := h4.2.2 _ hfe <;> cases h
              · rw [h4] at hfe; cases List.mem_singleton.1 hfe; rfl
            subst hgg
            exfalso
            have hb := hs2 g2 he3
            have hrm : removing (s.r.pc g2) = true := by
              rg_cases h3
              all_goals first
                | (simp at hfe; done)
                | (rename_i hpc; rw [hpc]; rfl)
            rw [hbad _ hrm] at hb; cases hb
    rcases List.append_eq_append_iff.1 he with ⟨l, h1, h2⟩ | ⟨l, h1, h2⟩
    · exact now l h1 h2
    · rcases l with _ | ⟨y, l⟩
      · exact now [] (by simpa using h1.symm) (by simpa using h2.symm)
      · cases h2
        have hh := hi ho' ha' ⟨pre, g, t, l, h1, hm, fun e he => hu e (List.mem_append_left _ he)⟩
        exact away_step hh hst (owned_right ho) (fun e he => hu e (List.mem_append_right _ he))

theorem unregistered_append {h l : List Ev} (hg : Unregistered n id h) (hc : Still n id l) :
    Unregistered n id (h ++ l) := by
  obtain ⟨pre, g, t, post, rfl, h2, h4⟩ := hg
  refine ⟨pre, g, t, post ++ l, by simp, h2, fun e he => ?_⟩
  rcases List.mem_append.1 he with he | he
  · exact h4 e he
  · exact hc e he

end Braid.Live
