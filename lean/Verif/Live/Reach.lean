import Verif.Live.Stay

/-
An actor that is registered is in the map of its node, and calls of it reach it.
-/
namespace Braid.Live
open AddressBook Spec

variable {cfg : Nat → NodeCfg} {factory : Nat → String → Option Int} {n : Nat} {id ty : String}

/-- The actor is in the map, and nobody is removing it. -/
def Here (n : Nat) (id : String) (s : State) : Prop :=
  Register.get (s.r.map n) id ≠ none ∧ ∀ g t, cur s g ≠ some (.unreg n id t)

theorem map_reg {r r' : Register.State} {g : Nat} {a : Register.Act} {e : List Register.Ev}
    (ha : a = .go g ∨ a = .fail g) (hs : Register.step cfg factory r a = some (r', e))
    (h : Register.get (r.map n) id ≠ none) (hop : ∀ t, (r.pc g).op ≠ some (.unreg n id t)) :
    Register.get (r'.map n) id ≠ none := by
  rcases ha with rfl | rfl
  all_goals
    rg_cases hs
    all_goals first
      | exact h
      | (dsimp only; rw [upd_apply]; split
         · rename_i hm; subst hm; rw [Register.get_put]; split
           · simp
           · exact h
         · exact h)
      | (rename_i m y t hpc
         have := hop t
         rw [hpc] at this
         dsimp only; rw [upd_apply]; split
         · rename_i hm; subst hm; rw [Register.get_del]; split
           · rename_i hy; subst hy; exact absurd rfl this
           · exact h
         · exact h)

theorem here_step {s s' : State} {evs : List Ev} (hl : Link s) (hh : Here n id s) (hs : Step cfg factory s s' evs)
    (he : ∀ e ∈ evs, ∀ t, begins e ≠ some (.unreg n id t)) : Here n id s' := by
  constructor
  · cases hs with
    | reg ha hr => exact map_reg ha hr hh.1 (fun t h => hh.2 _ t (cur_unreg hl h))
    | regStart => exact hh.1
    | unregStart => exact hh.1
    | callEmpty => exact hh.1
    | call => exact hh.1
    | c hc => cases hc <;> exact hh.1
  · intro g t h
    cases moves hl hs with
    | stay h1 => rw [h1] at h; exact hh.2 g t h
    | begin e x o h1 h2 h3 h4 h5 =>
      by_cases hx : g = x
      · subst hx; rw [h4] at h; cases h
        exact he e (by rw [h1]; exact List.mem_singleton.2 rfl) t h2
      · rw [h5 g hx] at h; exact hh.2 g t h
    | done x h1 h2 =>
      by_cases hx : g = x
      · subst hx; rw [h1] at h; cases h
      · rw [h2 g hx] at h; exact hh.2 g t h
    | both _ _ _ _ _ _ _ _ h1 => rw [h1] at h; exact hh.2 g t h

/-- A `Register` that returns nil has put the actor into the map. -/
theorem ok_map {s : State} {r : Register.State} {g : Nat} {a : Register.Act} {e : List Register.Ev}
    {b : Register.Builder} (hsh : Shape s) (ha : a = .go g ∨ a = .fail g)
    (hs : Register.step cfg factory s.r a = some (r, e)) (hf : .finish g .ok ∈ e)
    (hop : (s.r.pc g).op = some (.reg n b)) : Register.get (r.map n) b.id ≠ none := by
  have h1 := hsh.uget g
  have h2 := hsh.upipe2 g
  have h3 := hsh.uidmap g
  rcases ha with rfl | rfl
  all_goals
    rg_cases hs
    all_goals first
      | (simp at hf; done)
      | (simp_all [Register.Pc.op]; done)
      | (rename_i hpc; rw [hpc] at hop; simp only [Register.Pc.op, Option.some.injEq, Register.Op.reg.injEq] at hop
         obtain ⟨rfl, rfl⟩ := hop
         dsimp only
         rw [upd_same, Register.get_put, if_pos rfl]; simp; done)
      | (exfalso; grind [Register.Pc.op])

theorem here_run {h : List Ev} {s : State} (hr : (sys cfg factory).Run h s) (ha : Apart n id ty h)
    (hg : Registered n id h) : Here n id s := by
  revert ha hg
  refine hr.invariant (P := fun h s => Apart n id ty h → Registered n id h → Here n id s) ?_ ?_
  · rintro _ ⟨pre, g, b, post, h, _⟩
    simp at h
  · rintro h s a s' evs hr hi hs ha ⟨pre, g, b, post, he, hm, hb, hu⟩
    have ha' := apart_prefix ha
    have hst := step_rel hs
    have hl := link_run hr
    -- the `Register` returns now
    have now : ∀ l, pre = h ++ l → evs = l ++ .reg (.finish g .ok) :: post → Here n id s' := by
      intro l h1 h2
      cases hst with
      | @reg g' a r e hx hr' =>
        have hf : Ev.reg (.finish g .ok) ∈ e.map Ev.reg := by rw [h2]; simp
        obtain ⟨y, hy, hy'⟩ := List.mem_map.1 hf
        cases hy'
        obtain ⟨hoth, hq | ⟨hq1, hq2, res, rfl⟩⟩ := reg_op hx hr'
        · obtain ⟨i, h | ⟨_, h⟩⟩ := hq.2.2 _ hy <;> cases h
        · cases List.mem_singleton.1 hy
          have hl0 : l = [] := by
            cases l with
            | nil => rfl
            | cons z l => simp at h2
          subst hl0
          rw [List.append_nil] at h1; subst h1
          have hc := (active_iff hr g _).1 hm
          have hop : (s.r.pc g).op = some (.reg n b) := by
            unfold cur at hc
            split at hc
            · cases hc
            · split at hc
              all_goals first | (cases hc; assumption) | cases hc
          refine ⟨by have := ok_map (shape_run hr) hx hr' (List.mem_singleton.2 rfl) hop; rwa [hb] at this, ?_⟩
          intro g2 t hc2
          by_cases hne : g2 = g
          · subst hne
            simp [cur, hq1, Register.Pc.op, upd_same] at hc2
          · have : cur s g2 = some (.unreg n id t) := by
              rw [← hc2]; simp [cur, hq1, hoth g2 hne, upd_of_ne _ _ hne]
            exact (ex_run hr ha' g g2 _ _ (fun h => hne h.symm) hc this ⟨rfl, hb⟩).1 ⟨rfl, rfl⟩
      | regStart => rcases l with _ | ⟨_, _ | _⟩ <;> simp at h2
      | unregStart => rcases l with _ | ⟨_, _ | _⟩ <;> simp at h2
      | callEmpty => rcases l with _ | ⟨_, _ | ⟨_, _ | _⟩⟩ <;> simp at h2
      | call => rcases l with _ | ⟨_, _ | _⟩ <;> simp at h2
      | c hc => cases hc <;> (rcases l with _ | ⟨_, _ | _⟩ <;> simp at h2)
    rcases List.append_eq_append_iff.1 he with ⟨l, h1, h2⟩ | ⟨l, h1, h2⟩
    · exact now l h1 h2
    · rcases l with _ | ⟨y, l⟩
      · exact now [] (by simpa using h1.symm) (by simpa using h2.symm)
      · cases h2
        have hh := hi ha' ⟨pre, g, b, l, h1, hm, hb, fun e he => hu e (List.mem_append_left _ he)⟩
        exact here_step hl hh hst (fun e he => hu e (List.mem_append_right _ he))

theorem registered_append {h l : List Ev} (hg : Registered n id h) (hc : Calm n id l) :
    Registered n id (h ++ l) := by
  obtain ⟨pre, g, b, post, rfl, h2, h3, h4⟩ := hg
  refine ⟨pre, g, b, post ++ l, by simp, h2, h3, fun e he => ?_⟩
  rcases List.mem_append.1 he with he | he
  · exact h4 e he
  · exact hc e he

/-- Where a call of the actor may be. -/
def Way (cfg : Nat → NodeCfg) (n : Nat) (id ty : String) (m : Nat) (t : String) (c : CPc) : Prop :=
  c = .at_ .map m id t ∨ m ≠ n ∧ (c = .at_ .book m id t ∨ c = .at_ .redis m id t ∨
    c = .at_ (.resolve (record cfg n id ty)) m id t)

/-- What a call of the actor does next. -/
theorem way_step {s s' : State} {evs : List Ev} {g m : Nat} {t : String} (hcfg : OwnAddress cfg n)
    (hk : Keep cfg n id ty s) (hh : Here n id s) (hl : Link s) (hw : Way cfg n id ty m t (s.c g))
    (hs : Step cfg factory s s' evs) :
    Way cfg n id ty m t (s'.c g) ∧ (∀ e ∈ evs, ¬ Ends g e) ∨
      evs = [.ret g (.here id)] ∧ m = n ∨
      (evs = [.ret g (.forward (record cfg n id ty))] ∨ evs = [.ret g .failed]) ∧ m ≠ n := by
  have hni : s.c g ≠ .idle := by
    intro h; rw [h] at hw; rcases hw with h | ⟨_, h | h | h⟩ <;> cases h
  have hpi : s.r.pc g = .idle := by
    rcases hw with h | ⟨_, h | h | h⟩ <;> exact hl.idle g _ _ _ _ h (by simp)
  cases hs with
  | @regStart g' m' b hc hp =>
    refine .inl ⟨hw, fun e he => ?_⟩
    cases List.mem_singleton.1 he; exact fun h => h
  | @unregStart g' m' y t' hc hp =>
    refine .inl ⟨hw, fun e he => ?_⟩
    cases List.mem_singleton.1 he; exact fun h => h
  | @callEmpty g' m' t' hc hp =>
    refine .inl ⟨hw, fun e he => ?_⟩
    simp only [List.mem_cons, List.not_mem_nil, or_false] at he
    rcases he with rfl | rfl
    · exact fun h => h
    · rintro rfl; exact hni hc
  | @call g' m' t' u' p hc hp =>
    have : g ≠ g' := by rintro rfl; exact hni hc
    refine .inl ⟨?_, fun e he => ?_⟩
    · dsimp only; rw [upd_of_ne _ _ this]; exact hw
    · cases List.mem_singleton.1 he; exact fun h => h
  | @reg g' a r e ha hr =>
    obtain ⟨h1, h2⟩ := reg_op ha hr
    have hne : g ≠ g' := by
      rintro rfl
      rcases h2 with h2 | h2
      · rw [hpi] at h2; exact h2.2.1 (op_idle.1 h2.1)
      · exact h2.2.1 hpi
    refine .inl ⟨?_, fun e he => ?_⟩
    · dsimp only
      split
      · rw [upd_of_ne _ _ hne]; exact hw
      · exact hw
    · obtain ⟨y, hy, rfl⟩ := List.mem_map.1 he
      rcases h2 with h2 | ⟨_, _, res, rfl⟩
      · obtain ⟨i, rfl | ⟨_, rfl⟩⟩ := h2.2.2 y hy <;> exact fun h => h
      · cases List.mem_singleton.1 hy; exact fun h => hne h.symm
  | @c g' s' evs hc =>
    by_cases hg : g = g'
    · subst hg
      have hfull : Full cfg n id ty s.r.W := by
        cases hx : Register.get (s.r.map n) id with
        | none => exact absurd hx hh.1
        | some i => exact hk.full i hx
      have on : ∀ c', Way cfg n id ty m t c' → (∀ e ∈ ([] : List Ev), ¬ Ends g e) →
          Way cfg n id ty m t (upd s.c g c' g) ∧ (∀ e ∈ ([] : List Ev), ¬ Ends g e) := by
        intro c' h1 h2; rw [upd_same]; exact ⟨h1, h2⟩
      rcases hw with h | ⟨hmn, h | h | h⟩
      · cases hc with
        | mapHit h' hx =>
          rw [h] at h'; cases h'
          by_cases hmn : m = n
          · exact .inr (.inl ⟨rfl, hmn⟩)
          · exact absurd (hk.mapM m hmn) hx
        | mapMiss h' hx =>
          rw [h] at h'; cases h'
          by_cases hmn : m = n
          · subst hmn; exact absurd hx hh.1
          · exact .inl (on _ (.inr ⟨hmn, .inl rfl⟩) (by simp))
        | fail h' hp => rw [h] at h'; cases h'; simp at hp
        | panic _ _ h' => rw [h] at h'; cases h'
        | noId _ _ h' => rw [h] at h'; cases h'
        | _ h' => rw [h] at h'; cases h'
      · cases hc with
        | bookHit h' hx => rw [h] at h'; cases h'; rw [hk.idmap m hmn] at hx; cases hx
        | bookMiss h' hx => rw [h] at h'; cases h'; exact .inl (on _ (.inr ⟨hmn, .inr (.inl rfl)⟩) (by simp))
        | fail h' hp => rw [h] at h'; cases h'; simp at hp
        | panic _ _ h' => rw [h] at h'; cases h'
        | noId _ _ h' => rw [h] at h'; cases h'
        | _ h' => rw [h] at h'; cases h'
      · cases hc with
        | redisMiss h' hx => rw [h] at h'; cases h'; rw [hfull.1.1] at hx; cases hx
        | redisHit h' hx =>
          rw [h] at h'; cases h'; rw [hfull.1.1] at hx; cases hx
          exact .inl (on _ (.inr ⟨hmn, .inr (.inr rfl)⟩) (by simp))
        | fail h' hp => exact .inr (.inr ⟨.inr rfl, hmn⟩)
        | panic _ _ h' => rw [h] at h'; cases h'
        | noId _ _ h' => rw [h] at h'; cases h'
        | _ h' => rw [h] at h'; cases h'
      · cases hc with
        | forward h' hx => rw [h] at h'; cases h'; exact .inr (.inr ⟨.inl rfl, hmn⟩)
        | clean h' h1 h2 => rw [h] at h'; cases h'; exact absurd (hcfg m h1.symm h2.symm) hmn
        | panic h1 h2 h' => rw [h] at h'; cases h'; exact absurd (hcfg m h1.symm h2.symm) hmn
        | noId h1 h2 h' => rw [h] at h'; cases h'; exact absurd (hcfg m h1.symm h2.symm) hmn
        | fail h' hp => rw [h] at h'; cases h'; simp at hp
        | _ h' => rw [h] at h'; cases h'
    · have h1 : s'.c g = s.c g := by cases hc <;> exact upd_of_ne _ _ hg
      refine .inl ⟨by rw [h1]; exact hw, ?_⟩
      cases hc <;> intro e he <;> simp only [List.mem_singleton, List.not_mem_nil] at he <;> subst he <;>
        first | exact fun h => h | exact fun h => hg h.symm

/-- Where the call of the actor by `g` is. -/
theorem way_run {h : List Ev} {s : State} {g m : Nat} {t : String} (hcfg : OwnAddress cfg n)
    (h0 : id ≠ "") (h1 : id ≠ "?") (h2 : id ≠ "~") (hr : (sys cfg factory).Run h s)
    (ho : Owned n id ty h) (ha : Apart n id ty h) {pre mid : List Ev} (he : h = pre ++ .call g m id t :: mid)
    (hg : Registered n id pre) (hc : Calm n id mid) (hn : ∀ e ∈ mid, ¬ Ends g e) :
    Way cfg n id ty m t (s.c g) := by
  revert ho ha pre mid
  refine hr.invariant (P := fun h s => Owned n id ty h → Apart n id ty h → ∀ {pre mid : List Ev},
    h = pre ++ .call g m id t :: mid → Registered n id pre → Calm n id mid → (∀ e ∈ mid, ¬ Ends g e) →
    Way cfg n id ty m t (s.c g)) ?_ ?_
  · intro _ _ pre mid he; simp at he
  · intro h s a s' evs hr hi hs ho ha pre mid he hg hc hn
    have ho' := owned_prefix ho
    have ha' := apart_prefix ha
    have hst := step_rel hs
    have hl := link_run hr
    have now : ∀ l, pre = h ++ l → evs = l ++ .call g m id t :: mid → Way cfg n id ty m t (s'.c g) := by
      intro l e1 e2
      cases hst with
      | @call g' m' t' u' p k1 k2 k3 k4 k5 k6 =>
        have hl0 : l = [] := by
          cases l with
          | nil => rfl
          | cons z l => simp at e2
        subst hl0
        simp only [List.nil_append, List.cons.injEq, Ev.call.injEq] at e2
        obtain ⟨⟨rfl, rfl, rfl, rfl⟩, _⟩ := e2
        rw [k6 h1 h2]
        dsimp only
        rw [upd_same]
        exact .inl rfl
      | regStart => rcases l with _ | ⟨_, _ | _⟩ <;> simp at e2
      | unregStart => rcases l with _ | ⟨_, _ | _⟩ <;> simp at e2
      | callEmpty =>
        rcases l with _ | ⟨_, _ | ⟨_, _ | _⟩⟩ <;> simp at e2
        exact absurd e2.1.2.2.1 h0
      | @reg _ _ _ e _ _ =>
        have : Ev.call g m id t ∈ e.map Ev.reg := by rw [e2]; simp
        obtain ⟨_, _, h⟩ := List.mem_map.1 this
        cases h
      | c hc => cases hc <;> (rcases l with _ | ⟨_, _ | _⟩ <;> simp at e2)
    rcases List.append_eq_append_iff.1 he with ⟨l, e1, e2⟩ | ⟨l, e1, e2⟩
    · exact now l e1 e2
    · rcases l with _ | ⟨y, l⟩
      · exact now [] (by simpa using e1.symm) (by simpa using e2.symm)
      · cases e2
        have hc' : Calm n id l := fun e he => hc e (List.mem_append_left _ he)
        have hw := hi ho' ha' e1 hg hc' (fun e he => hn e (List.mem_append_left _ he))
        have hreg : Registered n id h := by
          rw [e1]
          refine registered_append hg (fun e he => ?_)
          rcases List.mem_cons.1 he with rfl | he
          · intro t h; cases h
          · exact hc' e he
        have := way_step hcfg (keep_run hcfg hr ho' ha') (here_run hr ha' hreg) hl hw hst
        rcases this with h | ⟨h, _⟩ | ⟨h | h, _⟩
        · exact h.1
        all_goals
          exact absurd (show Ends g (.ret g _) from rfl)
            (hn _ (List.mem_append_right _ (by rw [h]; exact List.mem_singleton.2 rfl)))

/-- Only a call of nobody ends at once. -/
theorem call_now {s s' : State} {l l' : List Ev} {e : Ev} {g m : Nat} {x t : String}
    (hs : Step cfg factory s s' (l ++ e :: l')) (he : Ends g e) (h : Ev.call g m x t ∈ l) : x = "" := by
  generalize hev : l ++ e :: l' = evs at hs
  have h1 : Ev.call g m x t ∈ evs := by rw [← hev]; exact List.mem_append_left _ h
  have h2 : e ∈ evs := by rw [← hev]; simp
  cases hs with
  | callEmpty => simp at h1; exact h1.2.2.1
  | regStart => simp at h1
  | unregStart => simp at h1
  | call => cases List.mem_singleton.1 h2; exact he.elim
  | reg => obtain ⟨_, _, h⟩ := List.mem_map.1 h1; cases h
  | c hc => cases hc <;> simp at h1

/-- How the call of the actor by `g` ends. -/
theorem way_end {h : List Ev} {s : State} {g m : Nat} {t : String} (hcfg : OwnAddress cfg n)
    (h0 : id ≠ "") (h1 : id ≠ "?") (h2 : id ≠ "~") (hr : (sys cfg factory).Run h s)
    (ho : Owned n id ty h) (ha : Apart n id ty h) {pre mid post : List Ev} {e : Ev}
    (he : h = (pre ++ .call g m id t :: mid) ++ e :: post)
    (hg : Registered n id pre) (hc : Calm n id mid) (hn : ∀ e ∈ mid, ¬ Ends g e) (hee : Ends g e) :
    e = .ret g (.here id) ∧ m = n ∨
      (e = .ret g (.forward (record cfg n id ty)) ∨ e = .ret g .failed) ∧ m ≠ n := by
  obtain ⟨hq, s0, a, s1, l, l', as, rest, hr0, hs, e1, e2, _⟩ := hr.split_at he
  have hpre : h = hq ++ (l ++ e :: post) := by rw [he, e1]; simp
  have ho' : Owned n id ty hq := owned_prefix (hpre ▸ ho)
  have ha' : Apart n id ty hq := apart_prefix (hpre ▸ ha)
  have hst := step_rel hs
  have hl := link_run hr0
  -- the call began before this step
  have key : ∃ mid', hq = pre ++ .call g m id t :: mid' ∧ mid = mid' ++ l := by
    have no : Ev.call g m id t ∉ l := fun h => h0 (call_now hst hee h)
    rcases List.append_eq_append_iff.1 e1 with ⟨k, k1, k2⟩ | ⟨k, k1, k2⟩
    · rcases k with _ | ⟨y, k⟩
      · exact absurd (by rw [List.nil_append] at k2; rw [← k2]; simp) no
      · cases k2; exact ⟨k, k1, rfl⟩
    · exact absurd (by rw [k2]; simp) no
  obtain ⟨mid', rfl, rfl⟩ := key
  have hc' : Calm n id mid' := fun e he => hc e (List.mem_append_left _ he)
  have hw := way_run hcfg h0 h1 h2 hr0 ho' ha' rfl hg hc' (fun e he => hn e (List.mem_append_left _ he))
  have hreg : Registered n id (pre ++ .call g m id t :: mid') := by
    refine registered_append hg (fun e he => ?_)
    rcases List.mem_cons.1 he with rfl | he
    · intro t h; cases h
    · exact hc' e he
  have := way_step hcfg (keep_run hcfg hr0 ho' ha') (here_run hr0 ha' hreg) hl hw hst
  rcases this with h | ⟨h, hm⟩ | ⟨h | h, hm⟩
  · exact absurd hee (h.2 e (by simp))
  · exact .inl ⟨by rcases l with _ | ⟨_, _ | _⟩ <;> simp at h; exact h.1, hm⟩
  · exact .inr ⟨.inl (by rcases l with _ | ⟨_, _ | _⟩ <;> simp at h; exact h.1), hm⟩
  · exact .inr ⟨.inr (by rcases l with _ | ⟨_, _ | _⟩ <;> simp at h; exact h.1), hm⟩

end Braid.Live
