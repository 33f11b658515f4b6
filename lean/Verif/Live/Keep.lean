import Verif.Live.Rec

/-
Invariants about the actor `id` of type `ty` on node `n`.
-/
namespace Braid.Live
open AddressBook Spec

variable {cfg : Nat → NodeCfg} {factory : Nat → String → Option Int}

/-- What the program counters say by themselves. -/
structure Shape (s : State) : Prop where
  upipe : ∀ g o m a x w k, s.r.pc g = .uPipe o m a x w k → a.actorId = x
  uget : ∀ g o m x w, s.r.pc g = .uGet o m x w → o = .clean m x w ∨ ∃ t, o = .unreg m x t
  upipe2 : ∀ g o m a x w k, s.r.pc g = .uPipe o m a x w k → o = .clean m x w ∨ ∃ t, o = .unreg m x t
  uidmap : ∀ g o m x, s.r.pc g = .uIdmap o m x → (∃ w, o = .clean m x w) ∨ ∃ t, o = .unreg m x t
  ids : ∀ x a, s.r.W.redis.ids x = some a → a.actorId = x
  tys : ∀ t a, a ∈ s.r.W.redis.tys t → a.actorTy = t
  ins : ∀ g m b i, s.r.pc g = .rInsert m b i → s.r.inst i = ⟨m, b.id, b.ty⟩ ∧ i < s.r.next
  tgt1 : ∀ g m t u, s.c g = .at_ .pick m t u → t = "?"
  tgt2 : ∀ g m t u a, s.c g = .at_ (.check a) m t u → t = "?"
  tgt3 : ∀ g m t u, s.c g = .at_ .scan m t u → t = "~"
  tgt4 : ∀ g m t u, s.c g = .at_ .pick2 m t u → t = "~"

theorem c_reg {s : State} {r : Register.State} {g x : Nat} {p : Pt} {m : Nat} {t u : String}
    (h : (if r.pc g = .idle then upd s.c g .idle else s.c) x = .at_ p m t u) : s.c x = .at_ p m t u := by
  split at h
  · rw [upd_apply] at h
    split at h
    · cases h
    · exact h
  · exact h

theorem shape_reg {s : State} {r : Register.State} {g : Nat} {a : Register.Act} {e : List Register.Ev}
    (hi : Shape s) (ha : a = .go g ∨ a = .fail g) (hs : Register.step cfg factory s.r a = some (r, e)) :
    Shape ⟨r, if r.pc g = .idle then upd s.c g .idle else s.c⟩ := by
  have hw := writes ha hs
  refine ⟨?_, ?_, ?_, ?_, ?_, ?_, ?_, fun x m t u h => hi.tgt1 x m t u (c_reg h),
    fun x m t u a h => hi.tgt2 x m t u a (c_reg h), fun x m t u h => hi.tgt3 x m t u (c_reg h),
    fun x m t u h => hi.tgt4 x m t u (c_reg h)⟩
  · intro x o m a x' w k h
    have h1 := hi.upipe x o m a x' w k
    have h2 := hi.upipe g
    have h3 := hi.ids
    clear hw
    rcases ha with rfl | rfl
    all_goals
      rg_cases hs
      all_goals
        simp only [upd_apply] at h
        grind
  · intro x o m x' w h
    have h1 := hi.uget x o m x' w
    clear hw
    rcases ha with rfl | rfl
    all_goals
      rg_cases hs
      all_goals
        simp only [upd_apply] at h
        grind
  · intro x o m a x' w k h
    have h1 := hi.upipe2 x o m a x' w k
    have h2 := hi.upipe2 g
    have h3 := hi.uget g
    clear hw
    rcases ha with rfl | rfl
    all_goals
      rg_cases hs
      all_goals
        simp only [upd_apply] at h
        grind
  · intro x o m x' h
    have h1 := hi.uidmap x o m x'
    have h3 := hi.upipe2 g
    clear hw
    rcases ha with rfl | rfl
    all_goals
      rg_cases hs
      all_goals
        simp only [upd_apply] at h
        grind
  · intro x a h
    have h0 := hi.ids x a
    cases hw with
    | no h1 h2 => exact h0 (by rw [← h1]; exact h)
    | hset m b hp h1 h2 =>
      dsimp only at h
      rw [h1] at h
      unfold AddressBook.set at h
      split at h
      · next hx => cases h; exact hx.symm
      · exact h0 h
    | sadd m b hp h1 h2 => exact h0 (by rw [← h1]; exact h)
    | hdel o m a' y w hp h1 h2 =>
      dsimp only at h
      rw [h1] at h
      unfold AddressBook.set at h
      split at h
      · cases h
      · exact h0 h
    | srem o m a' y w hp h1 h2 => exact h0 (by rw [← h1]; exact h)
  · intro t a h
    have h0 := hi.tys t a
    dsimp only at h
    cases hw with
    | no h1 h2 => exact h0 (by rw [← h2]; exact h)
    | hset m b hp h1 h2 => exact h0 (by rw [← h2]; exact h)
    | sadd m b hp h1 h2 =>
      rw [h2] at h
      rcases h with h | ⟨rfl, rfl⟩
      · exact h0 h
      · rfl
    | hdel o m a' y w hp h1 h2 => exact h0 (by rw [← h2]; exact h)
    | srem o m a' y w hp h1 h2 => exact h0 ((h2 _ _).1 h).1
  · intro x m b i h
    have h1 := hi.ins x m b i
    clear hw
    rcases ha with rfl | rfl
    all_goals
      rg_cases hs
      all_goals
        simp only [upd_apply] at h ⊢
        grind

theorem shape_step {s s' : State} {evs : List Ev} (hi : Shape s) (hs : Step cfg factory s s' evs) : Shape s' := by
  cases hs with
  | reg ha hr => exact shape_reg hi ha hr
  | callEmpty _ _ => exact hi
  | @regStart g n b hc hp =>
    have pc : ∀ x p, p ≠ Register.Pc.rMap n b → upd s.r.pc g (.rMap n b) x = p → s.r.pc x = p := by
      intro x p hne h
      rw [upd_apply] at h
      split at h
      · exact absurd h.symm hne
      · exact h
    exact ⟨fun x o m a y w k h => hi.upipe x o m a y w k (pc _ _ (by simp) h),
      fun x o m y w h => hi.uget x o m y w (pc _ _ (by simp) h),
      fun x o m a y w k h => hi.upipe2 x o m a y w k (pc _ _ (by simp) h),
      fun x o m y h => hi.uidmap x o m y (pc _ _ (by simp) h), hi.ids, hi.tys,
      fun x m b i h => hi.ins x m b i (pc _ _ (by simp) h), hi.tgt1, hi.tgt2, hi.tgt3, hi.tgt4⟩
  | @unregStart g n id ty hc hp =>
    have pc : ∀ x p, p ≠ Register.Pc.uMap n id ty → upd s.r.pc g (.uMap n id ty) x = p → s.r.pc x = p := by
      intro x p hne h
      rw [upd_apply] at h
      split at h
      · exact absurd h.symm hne
      · exact h
    exact ⟨fun x o m a y w k h => hi.upipe x o m a y w k (pc _ _ (by simp) h),
      fun x o m y w h => hi.uget x o m y w (pc _ _ (by simp) h),
      fun x o m a y w k h => hi.upipe2 x o m a y w k (pc _ _ (by simp) h),
      fun x o m y h => hi.uidmap x o m y (pc _ _ (by simp) h), hi.ids, hi.tys,
      fun x m b i h => hi.ins x m b i (pc _ _ (by simp) h), hi.tgt1, hi.tgt2, hi.tgt3, hi.tgt4⟩
  | @call g n target ty p hc hp h1 h2 h3 h4 h5 h6 h7 =>
    refine ⟨hi.upipe, hi.uget, hi.upipe2, hi.uidmap, hi.ids, hi.tys, hi.ins, ?_, ?_, ?_, ?_⟩
    · intro x m t u h
      have := hi.tgt1 x m t u
      grind [upd_apply]
    · intro x m t u a h
      have := hi.tgt2 x m t u a
      grind [upd_apply]
    · intro x m t u h
      have := hi.tgt3 x m t u
      grind [upd_apply]
    · intro x m t u h
      have := hi.tgt4 x m t u
      grind [upd_apply]
  | @c g _ _ hc =>
    have t1 := hi.tgt1
    have t2 := hi.tgt2
    have t3 := hi.tgt3
    have t4 := hi.tgt4
    cases hc
    case clean n target ty a w ha h1 h2 hp =>
      have pc : ∀ x p, p ≠ Register.Pc.uGet (.clean n a.actorId w) n a.actorId w →
          upd s.r.pc g (.uGet (.clean n a.actorId w) n a.actorId w) x = p → s.r.pc x = p := by
        intro x p hne h
        rw [upd_apply] at h
        split at h
        · exact absurd h.symm hne
        · exact h
      refine ⟨fun x o m a y w k h => hi.upipe x o m a y w k (pc _ _ (by simp) h), ?_,
        fun x o m a y w k h => hi.upipe2 x o m a y w k (pc _ _ (by simp) h),
        fun x o m y h => hi.uidmap x o m y (pc _ _ (by simp) h), hi.ids, hi.tys,
        fun x m b i h => hi.ins x m b i (pc _ _ (by simp) h), ?_, ?_, ?_, ?_⟩
      · intro x o m y w' h
        have := hi.uget x o m y w'
        dsimp only at h
        rw [upd_apply] at h
        split at h
        · cases h; exact .inl rfl
        · exact this h
      all_goals
        intro x
        dsimp only
        rw [upd_apply]
        grind
    all_goals
      refine ⟨hi.upipe, hi.uget, hi.upipe2, hi.uidmap, hi.ids, hi.tys, hi.ins, ?_, ?_, ?_, ?_⟩
      all_goals
        intro x
        dsimp only
        rw [upd_apply]
        grind

theorem shape_run {h : List Ev} {s : State} (hr : (sys cfg factory).Run h s) : Shape s := by
  refine hr.invariant (P := fun _ s => Shape s) ?_ (fun h s a s' evs _ hi hs => shape_step hi (step_rel hs))
  exact ⟨fun _ _ _ _ _ _ _ h => (nomatch h), fun _ _ _ _ _ h => (nomatch h), fun _ _ _ _ _ _ _ h => (nomatch h),
    fun _ _ _ _ h => (nomatch h), fun _ _ h => (nomatch h), fun _ _ h => (nomatch h), fun _ _ _ _ h => (nomatch h),
    fun _ _ _ _ h => (nomatch h), fun _ _ _ _ _ h => (nomatch h), fun _ _ _ _ h => (nomatch h),
    fun _ _ _ _ h => (nomatch h)⟩

end Braid.Live
