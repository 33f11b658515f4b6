import Verif.Live.Alive
import Verif.Live.SpecGone

/-
What is left of an actor that is removed.
-/
namespace Braid.Live
open AddressBook Spec

variable {cfg : Nat → NodeCfg} {factory : Nat → String → Option Int} {n : Nat} {id ty : String}

theorem sure_step {bad : Register.Pc → Bool} {s s' : State} {a : Act} {evs : List Ev}
    (h : (sureSys cfg factory bad).step s a = some (s', evs)) :
    step cfg factory s a = some (s', evs) ∧ ∀ g, a = .reg (.fail g) → bad (s.r.pc g) = false := by
  simp only [sureSys] at h
  split at h
  · next g =>
    split at h
    · cases h
    · next hb => exact ⟨h, fun g' e => by cases e; simpa using hb⟩
  · next hne => exact ⟨h, fun g' e => absurd e (hne g')⟩

theorem sure_run {bad : Register.Pc → Bool} {h : List Ev} {s : State}
    (hr : (sureSys cfg factory bad).Run h s) : (sys cfg factory).Run h s := by
  induction hr with
  | init => exact .init
  | step _ hs ih => exact .step ih (sure_step hs).1

/-- What a step does to the nodes and to Redis. -/
theorem step_reg {s s' : State} {a : Act} {evs : List Ev} (hs : step cfg factory s a = some (s', evs)) :
    s'.r = s.r ∨ (∃ g o e, Register.step cfg factory s.r (.start g o) = some (s'.r, e)) ∨
    ∃ g e, evs = e.map .reg ∧ (a = .reg (.go g) ∧ Register.step cfg factory s.r (.go g) = some (s'.r, e) ∨
      a = .reg (.fail g) ∧ Register.step cfg factory s.r (.fail g) = some (s'.r, e)) := by
  cases a with
  | reg a =>
    cases a with
    | start g o =>
      simp only [step] at hs
      split at hs
      · cases hs
      · split at hs
        · next heq => cases hs; exact .inr (.inl ⟨_, _, _, heq⟩)
        · cases hs
      · cases hs
    | go g =>
      simp only [step] at hs
      split at hs
      · next heq => cases hs; exact .inr (.inr ⟨g, _, rfl, .inl ⟨rfl, heq⟩⟩)
      · cases hs
    | fail g =>
      simp only [step] at hs
      split at hs
      · next heq => cases hs; exact .inr (.inr ⟨g, _, rfl, .inr ⟨rfl, heq⟩⟩)
      · cases hs
  | go g =>
    simp only [step, stepGo, ret, goTo] at hs
    repeat' (split at hs)
    all_goals first
      | (cases hs; done)
      | (cases hs; exact .inl rfl)
      | (next heq => cases hs; exact .inr (.inl ⟨_, _, _, heq⟩))
  | call g n target ty =>
    simp only [step] at hs
    repeat' (split at hs)
    all_goals first
      | (cases hs; done)
      | (cases hs; exact .inl rfl)
  | pick g a =>
    simp only [step, goTo] at hs
    repeat' (split at hs)
    all_goals first
      | (cases hs; done)
      | (cases hs; exact .inl rfl)
  | found g x =>
    simp only [step, ret] at hs
    repeat' (split at hs)
    all_goals first
      | (cases hs; done)
      | (cases hs; exact .inl rfl)
  | fail g =>
    simp only [step, ret] at hs
    repeat' (split at hs)
    all_goals first
      | (cases hs; done)
      | (cases hs; exact .inl rfl)

/-- The goroutine has removed the record by the id, and is not finished. -/
def Rem (id : String) (p : Register.Pc) : Prop :=
  (∃ o m a w k, 1 ≤ k ∧ p = .uPipe o m a id w k) ∨ ∃ o m, p = .uIdmap o m id

/-- As long as a record of the actor is left, so is that by the id, or somebody is removing the rest. -/
structure Tidy (cfg : Nat → NodeCfg) (n : Nat) (id ty : String) (r : Register.State) : Prop where
  pipe : ∀ g o m a w k, r.pc g = .uPipe o m a id w k → a = record cfg n id ty
  gone : ∀ g, Rem id (r.pc g) → r.W.redis.ids id = none
  tys : record cfg n id ty ∈ r.W.redis.tys ty → r.W.redis.ids id ≠ none ∨
    ∃ g o m w, r.pc g = .uPipe o m (record cfg n id ty) id w 1
  book : r.W.idmap n id = true → r.W.redis.ids id ≠ none ∨ ∃ g, Rem id (r.pc g)

theorem tidy_start {r r' : Register.State} {g : Nat} {o : Register.Op} {e : List Register.Ev}
    (h : Tidy cfg n id ty r) (hs : Register.step cfg factory r (.start g o) = some (r', e)) :
    Tidy cfg n id ty r' := by
  obtain ⟨h1, h2, h3, h4⟩ := h
  rg_cases hs
  all_goals
    rename_i hpc _
    have hne : ∀ p, p ≠ Register.Pc.idle → ∀ x, r.pc x = p → x ≠ g := by
      rintro p hp x h rfl; exact hp (by rw [← h]; assumption)
    constructor
    · intro x o m a w k h
      dsimp only at h; rw [upd_apply] at h; split at h
      · cases h
      · exact h1 x o m a w k h
    · intro x h
      dsimp only at h; rw [upd_apply] at h; split at h
      · rcases h with ⟨_, _, _, _, _, _, h⟩ | ⟨_, _, h⟩ <;> cases h
      · exact h2 x h
    · intro h
      refine (h3 h).imp (fun h => h) ?_
      rintro ⟨x, o, m, w, h⟩
      exact ⟨x, o, m, w, by dsimp only; rw [upd_of_ne _ _ (hne _ (by simp) x h)]; exact h⟩
    · intro h
      refine (h4 h).imp (fun h => h) ?_
      rintro ⟨x, h⟩
      refine ⟨x, ?_⟩
      dsimp only; rw [upd_of_ne]
      · exact h
      · rcases h with ⟨_, _, _, _, _, _, h⟩ | ⟨_, _, h⟩ <;> exact hne _ (by simp) x h

/-- What the operations in progress have to do with the actor. -/
structure Around (cfg : Nat → NodeCfg) (n : Nat) (id ty : String) (r : Register.State) : Prop where
  idA : ∀ a, r.W.redis.ids id = some a → a = record cfg n id ty
  own : ∀ g m b, (r.pc g).op = some (.reg m b) → b.id = id → m = n ∧ b.ty = ty
  node : ∀ g o m, r.pc g = .uIdmap o m id → m = n
  prog : ∀ g m b k, r.pc g = .rPipe m b k → b.id = id → 1 ≤ k → r.W.redis.ids id ≠ none
  prog2 : ∀ g m b, r.pc g = .rIdmap m b → b.id = id → r.W.redis.ids id ≠ none
  alone : ∀ g g' m b, (r.pc g).op = some (.reg m b) → b.id = id → ¬ Rem id (r.pc g')

theorem mv_rem {r r' : Register.State} {g : Nat} {e : List Register.Ev}
    (hs : Register.step cfg factory r (.go g) = some (r', e)) (h : Rem id (r'.pc g)) :
    Rem id (r.pc g) ∨ ∃ o m a w, r.pc g = .uPipe o m a id w 0 := by
  unfold Rem at *
  rg_cases hs
  all_goals
    simp only [upd_same] at h
    first
      | (simp at h; done)
      | (rename_i o n a x w k hpc _ c hc
         rcases h with ⟨o', m, a', w', k', hk, h⟩ | ⟨_, _, h⟩
         · simp only [Register.Pc.uPipe.injEq] at h
           obtain ⟨rfl, rfl, rfl, rfl, rfl, rfl⟩ := h
           cases k with
           | zero => exact .inr ⟨_, _, _, _, hpc⟩
           | succ k => exact .inl (.inl ⟨_, _, _, _, _, by omega, hpc⟩)
         · cases h)
      | (rename_i o n a x w k hpc _ hc
         rcases h with ⟨o', m, a', w', k', hk, h⟩ | ⟨_, _, h⟩
         · cases h
         · cases h
           cases k with
           | zero => simp [unregisterCmds] at hc
           | succ k => exact .inl (.inl ⟨_, _, _, _, _, by omega, hpc⟩))
      | (rcases h with ⟨o', m, a', w', k', hk, h⟩ | ⟨_, _, h⟩
         · cases h; omega
         · cases h)

theorem mv_pipe {r r' : Register.State} {g : Nat} {e : List Register.Ev} {o : Register.Op} {m : Nat} {a : Addr}
    {w : Int} {k : Nat} (hs : Register.step cfg factory r (.go g) = some (r', e))
    (h : r'.pc g = .uPipe o m a id w k) : r.W.redis.ids id = some a ∨ ∃ k, r.pc g = .uPipe o m a id w k := by
  rg_cases hs
  all_goals
    simp only [upd_same] at h
    first
      | (cases h; done)
      | (cases h; exact .inl ‹_›)
      | (cases h; exact .inr ⟨_, ‹_›⟩)

theorem mv_next {r r' : Register.State} {g : Nat} {e : List Register.Ev} {o : Register.Op} {m : Nat} {a : Addr}
    {w : Int} {k : Nat} (hs : Register.step cfg factory r (.go g) = some (r', e))
    (h : r.pc g = .uPipe o m a id w k) : r'.pc g = .uPipe o m a id w (k + 1) ∨ r'.pc g = .uIdmap o m id := by
  simp only [Register.step, Register.stepGo, h] at hs
  split at hs
  · cases hs; exact .inl (by simp)
  · cases hs; exact .inr (by simp)

theorem mv_one {r r' : Register.State} {g : Nat} {e : List Register.Ev} {o : Register.Op} {m : Nat} {a : Addr}
    {w : Int} (hs : Register.step cfg factory r (.go g) = some (r', e))
    (h : r.pc g = .uPipe o m a id w 0) : r'.pc g = .uPipe o m a id w 1 ∧ r'.W.redis.ids id = none := by
  simp only [Register.step, Register.stepGo, h, unregisterCmds, List.getElem?_cons_zero] at hs
  cases hs
  exact ⟨by simp, by simp [Redis.run, AddressBook.set]⟩

theorem mv_two {r r' : Register.State} {g : Nat} {e : List Register.Ev} {o : Register.Op} {m : Nat} {a : Addr}
    {w : Int} (hs : Register.step cfg factory r (.go g) = some (r', e))
    (h : r.pc g = .uPipe o m a id w 1) : a ∉ r'.W.redis.tys a.actorTy := by
  simp only [Register.step, Register.stepGo, h, unregisterCmds, List.getElem?_cons_succ, List.getElem?_cons_zero] at hs
  cases hs
  simp [Redis.run, AddressBook.set]

theorem mv_book {r r' : Register.State} {g : Nat} {e : List Register.Ev} {o : Register.Op} {m : Nat}
    (hs : Register.step cfg factory r (.go g) = some (r', e)) (h : r.pc g = .uIdmap o m id) :
    r'.W.idmap m id = false := by
  simp only [Register.step, Register.stepGo, h] at hs
  cases hs
  simp [Register.setIdmap]

/-- The record by the id goes only with its removal. -/
theorem ids_left {r r' : Register.State} {g : Nat} {e : List Register.Ev}
    (hs : Register.step cfg factory r (.go g) = some (r', e)) (h : r.W.redis.ids id ≠ none) :
    r'.W.redis.ids id ≠ none ∨ ∃ o m a w, r.pc g = .uPipe o m a id w 0 := by
  cases writes (.inl rfl) hs with
  | no h1 _ => rw [h1]; exact .inl h
  | hset m b h1 h2 _ =>
    refine .inl ?_
    rw [h2]; unfold AddressBook.set
    split
    · simp
    · exact h
  | sadd _ _ _ h1 _ => rw [h1]; exact .inl h
  | hdel o m a x w h1 h2 _ =>
    by_cases hx : id = x
    · subst hx; exact .inr ⟨_, _, _, _, h1⟩
    · refine .inl ?_
      rw [h2]; unfold AddressBook.set
      rw [if_neg hx]; exact h
  | srem _ _ _ _ _ _ h1 _ => rw [h1]; exact .inl h

theorem tidy_go {r r' : Register.State} {g : Nat} {e : List Register.Ev}
    (h : Tidy cfg n id ty r) (hd : Around cfg n id ty r)
    (hs : Register.step cfg factory r (.go g) = some (r', e)) : Tidy cfg n id ty r' := by
  have hpc := (reg_op (.inl rfl) hs).1
  have hw := writes (.inl rfl) hs
  have hm := marks (.inl rfl) hs
  constructor
  · intro x o m a w k hx
    by_cases hg : x = g
    · subst hg
      rcases mv_pipe hs hx with h1 | ⟨k', h1⟩
      · exact hd.idA _ h1
      · exact h.pipe x _ _ _ _ _ h1
    · rw [hpc x hg] at hx; exact h.pipe x _ _ _ _ _ hx
  · intro x hx
    have old : Rem id (r.pc x) → r'.W.redis.ids id = none := by
      intro h0
      have h0' := h.gone x h0
      cases hw with
      | no h1 _ => rw [h1]; exact h0'
      | hset m b h1 h2 _ =>
        rw [h2]; unfold AddressBook.set
        split
        · next hb => exact absurd h0 (hd.alone g x m b (by rw [h1]; rfl) hb.symm)
        · exact h0'
      | sadd _ _ _ h1 _ => rw [h1]; exact h0'
      | hdel o m a y w h1 h2 _ =>
        rw [h2]; unfold AddressBook.set
        split
        · rfl
        · exact h0'
      | srem _ _ _ _ _ _ h1 _ => rw [h1]; exact h0'
    by_cases hg : x = g
    · subst hg
      rcases mv_rem hs hx with h1 | ⟨_, _, _, _, h1⟩
      · exact old h1
      · exact (mv_one hs h1).2
    · rw [hpc x hg] at hx; exact old hx
  · intro hx
    have old : record cfg n id ty ∈ r.W.redis.tys ty → r'.W.redis.ids id ≠ none ∨
        ∃ g o m w, r'.pc g = .uPipe o m (record cfg n id ty) id w 1 := by
      intro h0
      rcases h.tys h0 with h1 | ⟨y, o, m, w, h1⟩
      · rcases ids_left hs h1 with h2 | ⟨o, m, a, w, h2⟩
        · exact .inl h2
        · have := h.pipe g _ _ _ _ _ h2
          subst this
          exact .inr ⟨g, o, m, w, (mv_one hs h2).1⟩
      · by_cases hg : y = g
        · subst hg; exact absurd hx (mv_two hs h1)
        · exact .inr ⟨y, o, m, w, by rw [hpc y hg]; exact h1⟩
    cases hw with
    | no _ h1 => exact old (by rw [← h1]; exact hx)
    | hset _ _ _ _ h1 => exact old (by rw [← h1]; exact hx)
    | sadd m b h1 h2 h3 =>
      rcases (h3 _ _).1 hx with h4 | ⟨h4, h5⟩
      · exact old h4
      · have hb : b.id = id := (congrArg Addr.actorId h5).symm
        exact .inl (by rw [h2]; exact hd.prog g m b 1 h1 hb (Nat.le_refl _))
    | hdel _ _ _ _ _ _ _ h1 => exact old (by rw [← h1]; exact hx)
    | srem _ _ _ _ _ _ _ h1 => exact old ((h1 _ _).1 hx).1
  · intro hx
    have old : r.W.idmap n id = true → r'.W.redis.ids id ≠ none ∨ ∃ g, Rem id (r'.pc g) := by
      intro h0
      rcases h.book h0 with h1 | ⟨y, h1⟩
      · rcases ids_left hs h1 with h2 | ⟨o, m, a, w, h2⟩
        · exact .inl h2
        · exact .inr ⟨g, .inl ⟨o, m, a, w, 1, Nat.le_refl _, (mv_one hs h2).1⟩⟩
      · by_cases hg : y = g
        · subst hg
          rcases h1 with ⟨o, m, a, w, k, hk, h1⟩ | ⟨o, m, h1⟩
          · rcases mv_next hs h1 with h2 | h2
            · exact .inr ⟨y, .inl ⟨o, m, a, w, k + 1, by omega, h2⟩⟩
            · exact .inr ⟨y, .inr ⟨o, m, h2⟩⟩
          · have := hd.node y o m h1
            subst this
            rw [mv_book hs h1] at hx; cases hx
        · exact .inr ⟨y, by rw [hpc y hg]; exact h1⟩
    cases hm with
    | no h1 => exact old (by rw [← h1]; exact hx)
    | yes m b h1 h2 =>
      rw [h2] at hx
      split at hx
      · next hc =>
        refine .inl ?_
        have h0 := hd.prog2 g m b h1 hc.2.symm
        rcases ids_left hs h0 with h3 | ⟨_, _, _, _, h3⟩
        · exact h3
        · rw [h1] at h3; cases h3
      · exact old hx
    | del o m y h1 h2 =>
      rw [h2] at hx
      split at hx
      · cases hx
      · exact old hx

theorem tidy_fail {r r' : Register.State} {g : Nat} {e : List Register.Ev} (h : Tidy cfg n id ty r)
    (hb : removing (r.pc g) = false) (hs : Register.step cfg factory r (.fail g) = some (r', e)) :
    Tidy cfg n id ty r' := by
  have hpc := (reg_op (.inr rfl) hs).1
  have hg : ∀ x, Rem id (r.pc x) → x ≠ g := by
    rintro x (⟨_, _, _, _, _, _, h⟩ | ⟨_, _, h⟩) rfl
    · rw [h] at hb; cases hb
    · simp [Register.step, Register.stepFail, h] at hs
  have hi : r'.pc g = .idle ∧ r'.W = r.W := by
    rg_cases hs <;> exact ⟨by simp, rfl⟩
  have hr : ∀ x, Rem id (r'.pc x) → Rem id (r.pc x) := by
    intro x hx
    by_cases h1 : x = g
    · subst h1; rw [hi.1] at hx; rcases hx with ⟨_, _, _, _, _, _, h⟩ | ⟨_, _, h⟩ <;> cases h
    · rwa [hpc x h1] at hx
  refine ⟨fun x o m a w k hx => ?_, fun x hx => ?_, fun hx => ?_, fun hx => ?_⟩
  · by_cases h1 : x = g
    · subst h1; rw [hi.1] at hx; cases hx
    · rw [hpc x h1] at hx; exact h.pipe x o m a w k hx
  · rw [hi.2]; exact h.gone x (hr x hx)
  · rw [hi.2] at hx ⊢
    refine (h.tys hx).imp (fun h => h) ?_
    rintro ⟨y, o, m, w, h1⟩
    exact ⟨y, o, m, w, by rw [hpc y (hg y (.inl ⟨_, _, _, _, _, Nat.le_refl _, h1⟩))]; exact h1⟩
  · rw [hi.2] at hx ⊢
    refine (h.book hx).imp (fun h => h) ?_
    rintro ⟨y, h1⟩
    exact ⟨y, by rw [hpc y (hg y h1)]; exact h1⟩

theorem around {s : State} (hk : Keep cfg n id ty s) (hs : Side n id ty s) : Around cfg n id ty s.r := by
  have hrem : ∀ g', Rem id (s.r.pc g') → missPc n id (s.r.pc g') := by
    rintro g' (⟨o, m, a, w, k, _, h⟩ | ⟨o, m, h⟩)
    · have := remover hk hs (g := g') (m := m) (o := o) (by rw [h]; rfl)
        ((hs.shape.upipe2 g' _ _ _ _ _ _ h).imp (fun h => ⟨w, h⟩) _root_.id)
      rw [h]; exact ⟨this, rfl⟩
    · have := remover hk hs (g := g') (m := m) (o := o) (by rw [h]; rfl) (hs.shape.uidmap g' _ _ _ h)
      rw [h]; exact ⟨this, rfl⟩
  refine ⟨hk.idA, hs.own, ?_, ?_, ?_, ?_⟩
  · intro g o m h
    exact remover hk hs (g := g) (m := m) (o := o) (by rw [h]; rfl) (hs.shape.uidmap g _ _ _ h)
  · intro g m b k h hb h1 hc
    have hm := hs.own g m b (by rw [h]; rfl) hb
    have := hk.prog g
    rw [h] at this
    rw [(this hm.1 hb).1 h1] at hc; cases hc
  · intro g m b h hb hc
    have hm := hs.own g m b (by rw [h]; rfl) hb
    have := hk.prog g
    rw [h] at this
    rw [(this hm.1 hb).1] at hc; cases hc
  · intro g g' m b h hb hr
    have hm := hs.own g m b h hb
    rw [hm.1] at h
    by_cases hg : g' = g
    · subst hg
      rcases hr with ⟨o, m', a, w, k, _, h1⟩ | ⟨o, m', h1⟩
      · rw [h1] at h
        rcases hs.shape.upipe2 g' _ _ _ _ _ _ h1 with h2 | ⟨_, h2⟩ <;> rw [h2] at h <;> cases h
      · rw [h1] at h
        rcases hs.shape.uidmap g' _ _ _ h1 with ⟨_, h2⟩ | ⟨_, h2⟩ <;> rw [h2] at h <;> cases h
    · exact others hk hs hg h hb (.inl (hrem g' hr))

theorem tidy_run {h : List Ev} {s : State} (hcfg : OwnAddress cfg n) {bad : Register.Pc → Bool}
    (hbad : ∀ p, removing p = true → bad p = true)
    (hr : (sureSys cfg factory bad).Run h s) (ho : Owned n id ty h) (ha : Apart n id ty h) :
    Tidy cfg n id ty s.r := by
  revert ho ha
  refine hr.invariant (P := fun h s => Owned n id ty h → Apart n id ty h → Tidy cfg n id ty s.r) ?_ ?_
  · intro _ _
    refine ⟨fun _ _ _ _ _ _ h => (nomatch h), fun _ h => ?_, fun h => (nomatch h), fun h => (nomatch h)⟩
    rfl
  · intro h s a s' evs hr hi hs ho ha
    have ho' := owned_prefix ho
    have ha' := apart_prefix ha
    have hr' := sure_run hr
    have ht := hi ho' ha'
    have hd := around (keep_run hcfg hr' ho' ha') (side_run hr' ho' ha')
    obtain ⟨h1, h2⟩ := sure_step hs
    rcases step_reg h1 with h3 | ⟨g, o, e, h3⟩ | ⟨g, e, _, ⟨_, h3⟩ | ⟨he, h3⟩⟩
    · rw [h3]; exact ht
    · exact tidy_start ht h3
    · exact tidy_go ht hd h3
    · refine tidy_fail ht ?_ h3
      have := h2 g he
      cases hb : removing (s.r.pc g) with
      | false => rfl
      | true => rw [hbad _ hb] at this; cases this

end Braid.Live
