import Verif.Live.Away

/-
Calls and registrations of an actor that was unregistered.
-/
namespace Braid.Live
open AddressBook Spec

variable {cfg : Nat → NodeCfg} {factory : Nat → String → Option Int} {n : Nat} {id ty : String}

/-- The call of `t` has not found the actor so far. -/
def Off (id : String) (m : Nat) (t u : String) (c : CPc) : Prop :=
  ∃ p, c = .at_ p m t u ∧ (∀ a, p = .check a ∨ p = .resolve a → a.actorId ≠ id) ∧
    (t = id → p = .map ∨ p = .book ∨ p = .redis)

/-- What a call does next that began when the actor was gone. -/
theorem off_step {s s' : State} {evs : List Ev} {g m : Nat} {t u : String}
    (hk : Keep cfg n id ty s) (hh : Away cfg n id ty s.r) (hsh : Shape s) (hl : Link s)
    (hw : Off id m t u (s.c g)) (hs : Step cfg factory s s' evs) :
    Off id m t u (s'.c g) ∧ (∀ e ∈ evs, ¬ Ends g e) ∨
      ∃ e, evs = [e] ∧ Ends g e ∧ ¬ Finds id e ∧ (t = id → e = .ret g .unknown ∨ e = .ret g .failed) := by
  obtain ⟨p, hc0, hp1, hp2⟩ := hw
  have hni : s.c g ≠ .idle := by rw [hc0]; simp
  have hmap : ∀ m', Register.get (s.r.map m') id = none := by
    intro m'
    by_cases h : m' = n
    · subst h; exact hh.map
    · exact hk.mapM m' h
  have hbook : ∀ m', s.r.W.idmap m' id = false := by
    intro m'
    by_cases h : m' = n
    · subst h; exact hh.book
    · exact hk.idmap m' h
  have htys : ∀ u' a, a ∈ s.r.W.redis.tys u' → a.actorId ≠ id := by
    intro u' a h1 h2
    have := hk.tyA u' a h1 h2
    have h3 := hsh.tys u' a h1
    subst this
    have h4 : ty = u' := h3
    subst h4
    exact hh.tys h1
  cases hs with
  | @regStart g' m' b hc hp =>
    refine .inl ⟨⟨p, hc0, hp1, hp2⟩, fun e he => ?_⟩
    cases List.mem_singleton.1 he; exact fun h => h
  | @unregStart g' m' y t' hc hp =>
    refine .inl ⟨⟨p, hc0, hp1, hp2⟩, fun e he => ?_⟩
    cases List.mem_singleton.1 he; exact fun h => h
  | @callEmpty g' m' t' hc hp =>
    refine .inl ⟨⟨p, hc0, hp1, hp2⟩, fun e he => ?_⟩
    simp only [List.mem_cons, List.not_mem_nil, or_false] at he
    rcases he with rfl | rfl
    · exact fun h => h
    · rintro rfl; exact hni hc
  | @call g' m' t' u' p' hc hp =>
    have : g ≠ g' := by rintro rfl; exact hni hc
    refine .inl ⟨?_, fun e he => ?_⟩
    · dsimp only; rw [upd_of_ne _ _ this]; exact ⟨p, hc0, hp1, hp2⟩
    · cases List.mem_singleton.1 he; exact fun h => h
  | @reg g' a r e ha hr =>
    obtain ⟨h1, h2⟩ := reg_op ha hr
    by_cases hne : g = g'
    · subst hne
      have hcl : p = .clean := by
        apply Classical.byContradiction
        intro hcl
        have hpi := hl.idle g _ _ _ _ hc0 hcl
        rcases h2 with h2 | h2
        · rw [hpi] at h2; exact h2.2.1 (op_idle.1 h2.1)
        · exact h2.2.1 hpi
      subst hcl
      have hti : t ≠ id := fun h => by rcases hp2 h with h | h | h <;> cases h
      rcases h2 with h2 | ⟨h3, _, res, rfl⟩
      · refine .inl ⟨?_, fun e he => ?_⟩
        · dsimp only; rw [if_neg h2.2.1]; exact ⟨_, hc0, hp1, hp2⟩
        · obtain ⟨y, hy, rfl⟩ := List.mem_map.1 he
          obtain ⟨i, rfl | ⟨_, rfl⟩⟩ := h2.2.2 y hy <;> exact fun h => h
      · exact .inr ⟨_, rfl, rfl, fun h => h, fun h => absurd h hti⟩
    · refine .inl ⟨?_, fun e he => ?_⟩
      · dsimp only
        split
        · rw [upd_of_ne _ _ hne]; exact ⟨p, hc0, hp1, hp2⟩
        · exact ⟨p, hc0, hp1, hp2⟩
      · obtain ⟨y, hy, rfl⟩ := List.mem_map.1 he
        rcases h2 with h2 | ⟨_, _, res, rfl⟩
        · obtain ⟨i, rfl | ⟨_, rfl⟩⟩ := h2.2.2 y hy <;> exact fun h => h
        · cases List.mem_singleton.1 hy; exact fun h => hne h.symm
  | @c g' s' evs hc =>
    by_cases hg : g = g'
    · subst hg
      have on : ∀ p', (∀ a, p' = .check a ∨ p' = .resolve a → a.actorId ≠ id) →
          (t = id → p' = .map ∨ p' = .book ∨ p' = .redis) →
          Off id m t u (upd s.c g (.at_ p' m t u) g) ∧ (∀ e ∈ ([] : List Ev), ¬ Ends g e) := by
        intro p' h1 h2; rw [upd_same]; exact ⟨⟨p', rfl, h1, h2⟩, by simp⟩
      cases hc with
      | mapHit h' hx =>
        rw [hc0] at h'; cases h'
        have hti : t ≠ id := by rintro rfl; exact hx (hmap m)
        exact .inr ⟨_, rfl, rfl, hti, fun h => absurd h hti⟩
      | mapMiss h' hx => rw [hc0] at h'; cases h'; exact .inl (on _ (by simp) (by simp))
      | bookHit h' hx =>
        rw [hc0] at h'; cases h'
        have hti : t ≠ id := by rintro rfl; rw [hbook] at hx; cases hx
        refine .inl (on _ ?_ (fun h => absurd h hti))
        rintro a (h | h) <;> cases h; exact hti
      | bookMiss h' hx => rw [hc0] at h'; cases h'; exact .inl (on _ (by simp) (by simp))
      | redisMiss h' hx => exact .inr ⟨_, rfl, rfl, fun h => h, fun _ => .inl rfl⟩
      | @redisHit _ _ _ a h' hx =>
        rw [hc0] at h'; cases h'
        have hti : t ≠ id := by rintro rfl; rw [hh.ids] at hx; cases hx
        refine .inl (on _ ?_ (fun h => absurd h hti))
        rintro a (h | h) <;> cases h
        rw [hsh.ids _ _ hx]; exact hti
      | checkHit h' hx =>
        rw [hc0] at h'; cases h'
        exact .inr ⟨_, rfl, rfl, hp1 _ (.inl rfl), fun h => by rcases hp2 h with h | h | h <;> cases h⟩
      | checkMiss h' hx =>
        rw [hc0] at h'; cases h'
        refine .inl (on _ ?_ (fun h => by rcases hp2 h with h | h | h <;> cases h))
        rintro a (h | h) <;> cases h; exact hp1 _ (.inl rfl)
      | scan h' hx =>
        rw [hc0] at h'; cases h'
        exact .inl (on _ (by simp) (fun h => by rcases hp2 h with h | h | h <;> cases h))
      | panic _ _ h' =>
        rw [hc0] at h'; cases h'
        exact .inr ⟨_, rfl, rfl, fun h => h, fun h => by rcases hp2 h with h | h | h <;> cases h⟩
      | noId _ _ h' =>
        rw [hc0] at h'; cases h'
        exact .inr ⟨_, rfl, rfl, fun h => h, fun h => by rcases hp2 h with h | h | h <;> cases h⟩
      | clean h' h1 h2 h3 =>
        rw [hc0] at h'; cases h'
        refine .inl ⟨?_, fun e he => ?_⟩
        · dsimp only; rw [upd_same]
          exact ⟨_, rfl, by simp, fun h => by rcases hp2 h with h | h | h <;> cases h⟩
        · cases List.mem_singleton.1 he; exact fun h => h
      | forward h' hx =>
        rw [hc0] at h'; cases h'
        exact .inr ⟨_, rfl, rfl, hp1 _ (.inr rfl), fun h => by rcases hp2 h with h | h | h <;> cases h⟩
      | pick h' hx =>
        rw [hc0] at h'; cases h'
        refine .inl (on _ ?_ (fun h => by rcases hp2 h with h | h | h <;> cases h))
        rintro a (h | h) <;> cases h; exact htys _ _ hx
      | pick2 h' hx =>
        rw [hc0] at h'; cases h'
        refine .inl (on _ ?_ (fun h => by rcases hp2 h with h | h | h <;> cases h))
        rintro a (h | h) <;> cases h; exact htys _ _ hx
      | found h' hx =>
        rw [hc0] at h'; cases h'
        refine .inr ⟨_, rfl, rfl, ?_, fun h => by rcases hp2 h with h | h | h <;> cases h⟩
        rintro rfl
        rw [hmap] at hx; cases hx
      | fail h' hp => exact .inr ⟨_, rfl, rfl, fun h => h, fun _ => .inr rfl⟩
    · have h1 : s'.c g = s.c g := by cases hc <;> exact upd_of_ne _ _ hg
      refine .inl ⟨by rw [h1]; exact ⟨p, hc0, hp1, hp2⟩, ?_⟩
      cases hc <;> intro e he <;> simp only [List.mem_singleton, List.not_mem_nil] at he <;> subst he <;>
        first | exact fun h => h | exact fun h => hg h.symm

theorem off_run {h : List Ev} {s : State} {g m : Nat} {t u : String} (hcfg : OwnAddress cfg n)
    {bad : Register.Pc → Bool} (hbad : ∀ p, removing p = true → bad p = true)
    (h0 : t ≠ "") (h1 : id ≠ "?") (h2 : id ≠ "~") (hr : (sureSys cfg factory bad).Run h s)
    (ho : Owned n id ty h) (ha : Apart n id ty h) {pre mid : List Ev} (he : h = pre ++ .call g m t u :: mid)
    (hg : Unregistered n id pre) (hc : Still n id mid) (hn : ∀ e ∈ mid, ¬ Ends g e) :
    Off id m t u (s.c g) := by
  revert ho ha pre mid
  refine hr.invariant (P := fun h s => Owned n id ty h → Apart n id ty h → ∀ {pre mid : List Ev},
    h = pre ++ .call g m t u :: mid → Unregistered n id pre → Still n id mid → (∀ e ∈ mid, ¬ Ends g e) →
    Off id m t u (s.c g)) ?_ ?_
  · intro _ _ pre mid he; simp at he
  · intro h s a s' evs hr hi hs ho ha pre mid he hg hc hn
    have ho' := owned_prefix ho
    have ha' := apart_prefix ha
    have hr' := sure_run hr
    have hst := step_rel (sure_step hs).1
    have hl := link_run hr'
    have now : ∀ l, pre = h ++ l → evs = l ++ .call g m t u :: mid → Off id m t u (s'.c g) := by
      intro l e1 e2
      cases hst with
      | @call g' m' t' u' p k1 k2 k3 k4 k5 k6 k7 k8 k9 =>
        have hl0 : l = [] := by
          cases l with
          | nil => rfl
          | cons z l => simp at e2
        subst hl0
        simp only [List.nil_append, List.cons.injEq, Ev.call.injEq] at e2
        obtain ⟨⟨rfl, rfl, rfl, rfl⟩, _⟩ := e2
        dsimp only
        rw [upd_same]
        refine ⟨p, rfl, ?_, ?_⟩
        · rintro a (rfl | rfl) <;> simp at k7
        · rintro rfl; exact .inl (k6 h1 h2)
      | regStart => rcases l with _ | ⟨_, _ | _⟩ <;> simp at e2
      | unregStart => rcases l with _ | ⟨_, _ | _⟩ <;> simp at e2
      | callEmpty =>
        rcases l with _ | ⟨_, _ | ⟨_, _ | _⟩⟩ <;> simp at e2
        exact absurd e2.1.2.2.1 h0
      | @reg _ _ _ e _ _ =>
        have : Ev.call g m t u ∈ e.map Ev.reg := by rw [e2]; simp
        obtain ⟨_, _, h⟩ := List.mem_map.1 this
        cases h
      | c hc => cases hc <;> (rcases l with _ | ⟨_, _ | _⟩ <;> simp at e2)
    rcases List.append_eq_append_iff.1 he with ⟨l, e1, e2⟩ | ⟨l, e1, e2⟩
    · exact now l e1 e2
    · rcases l with _ | ⟨y, l⟩
      · exact now [] (by simpa using e1.symm) (by simpa using e2.symm)
      · cases e2
        have hc' : Still n id l := fun e he => hc e (List.mem_append_left _ he)
        have hw := hi ho' ha' e1 hg hc' (fun e he => hn e (List.mem_append_left _ he))
        have hreg : Unregistered n id h := by
          rw [e1]
          refine unregistered_append hg (fun e he => ?_)
          rcases List.mem_cons.1 he with rfl | he
          · intro b _ h; cases h
          · exact hc' e he
        have := off_step (keep_run hcfg hr' ho' ha') (away_run hcfg hbad hr ho' ha' hreg) (shape_run hr') hl hw hst
        rcases this with h | ⟨e, h, he, _⟩
        · exact h.1
        · exact absurd he (hn e (List.mem_append_right _ (by rw [h]; exact List.mem_singleton.2 rfl)))

/-- How a call ends that began when the actor was gone. -/
theorem off_end {h : List Ev} {s : State} {g m : Nat} {t u : String} (hcfg : OwnAddress cfg n)
    {bad : Register.Pc → Bool} (hbad : ∀ p, removing p = true → bad p = true)
    (h0 : t ≠ "") (h1 : id ≠ "?") (h2 : id ≠ "~") (hr : (sureSys cfg factory bad).Run h s)
    (ho : Owned n id ty h) (ha : Apart n id ty h) {pre mid post : List Ev} {e : Ev}
    (he : h = (pre ++ .call g m t u :: mid) ++ e :: post)
    (hg : Unregistered n id pre) (hc : Still n id mid) (hn : ∀ e ∈ mid, ¬ Ends g e) (hee : Ends g e) :
    ¬ Finds id e ∧ (t = id → e = .ret g .unknown ∨ e = .ret g .failed) := by
  obtain ⟨hq, s0, a, s1, l, l', as, rest, hr0, hs, e1, e2, _⟩ := hr.split_at he
  have hpre : h = hq ++ (l ++ e :: post) := by rw [he, e1]; simp
  have ho' : Owned n id ty hq := owned_prefix (hpre ▸ ho)
  have ha' : Apart n id ty hq := apart_prefix (hpre ▸ ha)
  have hr' := sure_run hr0
  have hst := step_rel (sure_step hs).1
  have hl := link_run hr'
  have key : ∃ mid', hq = pre ++ .call g m t u :: mid' ∧ mid = mid' ++ l := by
    have no : Ev.call g m t u ∉ l := fun h => h0 (call_now hst hee h)
    rcases List.append_eq_append_iff.1 e1 with ⟨k, k1, k2⟩ | ⟨k, k1, k2⟩
    · rcases k with _ | ⟨y, k⟩
      · exact absurd (by rw [List.nil_append] at k2; rw [← k2]; simp) no
      · cases k2; exact ⟨k, k1, rfl⟩
    · exact absurd (by rw [k2]; simp) no
  obtain ⟨mid', rfl, rfl⟩ := key
  have hc' : Still n id mid' := fun e he => hc e (List.mem_append_left _ he)
  have hw := off_run hcfg hbad h0 h1 h2 hr0 ho' ha' rfl hg hc' (fun e he => hn e (List.mem_append_left _ he))
  have hreg : Unregistered n id (pre ++ .call g m t u :: mid') := by
    refine unregistered_append hg (fun e he => ?_)
    rcases List.mem_cons.1 he with rfl | he
    · intro b _ h; cases h
    · exact hc' e he
  have := off_step (keep_run hcfg hr' ho' ha') (away_run hcfg hbad hr0 ho' ha' hreg) (shape_run hr') hl hw hst
  rcases this with h | ⟨e', h, _, h3, h4⟩
  · exact absurd hee (h.2 e (by simp))
  · have : e = e' := by rcases l with _ | ⟨_, _ | _⟩ <;> simp at h; exact h.1
    rw [this]; exact ⟨h3, h4⟩

/-- The actor may be registered, and `g` is doing so. -/
def Fresh (n : Nat) (b : Register.Builder) (r : Register.State) (g : Nat) : Prop :=
  ((r.pc g = .rMap n b ∨ r.pc g = .rBook n b ∨ b.limit ≠ 0 ∧ (r.pc g = .rUnique n b ∨ r.pc g = .rCount n b)) ∧
    Register.get (r.map n) b.id = none ∧ r.W.idmap n b.id = false) ∨
  (∃ k, r.pc g = .rPipe n b k) ∨ r.pc g = .rIdmap n b ∨ r.pc g = .rBuild n b ∨ ∃ i, r.pc g = .rInsert n b i

theorem fresh_op {b : Register.Builder} {r : Register.State} {g : Nat} (h : Fresh n b r g) :
    (r.pc g).op = some (.reg n b) := by
  rcases h with ⟨h | h | ⟨_, h | h⟩, _⟩ | ⟨_, h⟩ | h | h | ⟨_, h⟩ <;> rw [h] <;> rfl

theorem fresh_self {b : Register.Builder} {r r' : Register.State} {g : Nat} {e : List Register.Ev}
    (hid : b.id ≠ "") (hty : b.ty ≠ "") (h : Fresh n b r g)
    (hs : Register.step cfg factory r (.go g) = some (r', e)) :
    Fresh n b r' g ∧ (∀ x ∈ e, ∀ r, x ≠ .finish g r) ∨ e = [.finish g .ok] ∨
      b.limit ≠ 0 ∧ e = [.finish g .err] := by
  rcases h with ⟨h | h | ⟨hl, h | h⟩, h1, h2⟩ | ⟨k, h⟩ | h | h | ⟨i, h⟩
  all_goals simp only [Register.step, Register.stepGo, h] at hs
  · simp only [hid, hty, or_self, if_false, h1, ne_eq, not_true_eq_false, Register.at_] at hs
    split at hs
    · split at hs
      · cases hs; exact .inl ⟨.inl ⟨.inr (.inr ⟨‹_›, .inl (by simp)⟩), h1, h2⟩, by simp⟩
      · cases hs; exact .inl ⟨.inl ⟨.inr (.inr ⟨‹_›, .inr (by simp)⟩), h1, h2⟩, by simp⟩
    · cases hs; exact .inl ⟨.inl ⟨.inr (.inl (by simp)), h1, h2⟩, by simp⟩
  · simp only [h2, Bool.false_eq_true, if_false, Register.at_] at hs
    cases hs; exact .inl ⟨.inr (.inl ⟨0, by simp⟩), by simp⟩
  · simp only [Register.ret, Register.at_] at hs
    split at hs
    · cases hs; exact .inr (.inr ⟨hl, rfl⟩)
    · cases hs; exact .inl ⟨.inl ⟨.inr (.inr ⟨hl, .inr (by simp)⟩), h1, h2⟩, by simp⟩
  · simp only [Register.ret, Register.at_] at hs
    split at hs
    · cases hs; exact .inr (.inr ⟨hl, rfl⟩)
    · cases hs; exact .inl ⟨.inl ⟨.inr (.inl (by simp)), h1, h2⟩, by simp⟩
  · split at hs
    · cases hs; exact .inl ⟨.inr (.inl ⟨_, by simp; rfl⟩), by simp⟩
    · cases hs; exact .inl ⟨.inr (.inr (.inl (by simp))), by simp⟩
  · cases hs; exact .inl ⟨.inr (.inr (.inr (.inl (by simp)))), by simp⟩
  · cases hs; exact .inl ⟨.inr (.inr (.inr (.inr ⟨_, by simp; rfl⟩))), by simp⟩
  · cases hs; exact .inr (.inl rfl)

/-- The steps of other goroutines. -/
theorem fresh_other {b : Register.Builder} {s : State} {r' : Register.State} {g g' : Nat} {a : Register.Act}
    {e : List Register.Ev} (hx : Side n b.id ty s) (h : Fresh n b s.r g) (hne : g ≠ g')
    (ha : a = .go g' ∨ a = .fail g') (hs : Register.step cfg factory s.r a = some (r', e)) : Fresh n b r' g := by
  have hpc := (reg_op ha hs).1 g hne
  have hop := fresh_op h
  have hcur := cur_reg hx.link hop
  have no : ∀ m b', (s.r.pc g').op = some (.reg m b') → m = n → b'.id = b.id → False := by
    intro m b' h1 h2 h3
    subst h2
    exact (hx.ex g g' _ _ hne hcur (cur_reg hx.link h1) ⟨rfl, rfl⟩).1 ⟨rfl, h3⟩
  unfold Fresh
  rw [hpc]
  refine h.imp (fun ⟨h1, h2, h3⟩ => ⟨h1, ?_, ?_⟩) (fun h => h)
  · cases puts ha hs with
    | no h4 => rw [h4]; exact h2
    | put m b' i h4 _ h5 =>
      rw [h5]
      split
      · next hc => exact (no m b' (by rw [h4]; rfl) hc.1.symm hc.2.symm).elim
      · exact h2
    | del m y t h4 h5 =>
      rw [h5]
      split
      · rfl
      · exact h2
  · cases marks ha hs with
    | no h4 => rw [h4]; exact h3
    | yes m b' h4 h5 =>
      rw [h5]
      split
      · next hc => exact (no m b' (by rw [h4]; rfl) hc.1.symm hc.2.symm).elim
      · exact h3
    | del o m y h4 h5 =>
      rw [h5]
      split
      · rfl
      · exact h3

/-- What a registration does next that began when the actor was gone. -/
theorem fresh_step {b : Register.Builder} {s s' : State} {a : Act} {evs : List Ev} {g : Nat}
    (hid : b.id ≠ "") (hty : b.ty ≠ "") (hx : Side n b.id ty s) (h : Fresh n b s.r g)
    (hs : (sureSys cfg factory (fun _ => true)).step s a = some (s', evs)) :
    Fresh n b s'.r g ∧ (∀ e ∈ evs, ¬ Ends g e) ∨ evs = [.reg (.finish g .ok)] ∨
      b.limit ≠ 0 ∧ evs = [.reg (.finish g .err)] := by
  obtain ⟨hs1, hs2⟩ := sure_step hs
  have hop := fresh_op h
  have hcg : s.c g = .idle := by
    have := cur_reg hx.link hop
    unfold cur at this
    split at this
    · cases this
    · assumption
  have start : ∀ g' o, g' ≠ g → s.r.pc g' = .idle → Fresh n b { s.r with pc := upd s.r.pc g' o } g := by
    intro g' o hne _
    unfold Fresh
    dsimp only
    rw [upd_of_ne _ _ (fun h => hne h.symm)]; exact h
  have ne : ∀ g', s.r.pc g' = .idle → g' ≠ g := by
    rintro g' h1 rfl; rw [h1] at hop; cases hop
  have nec : ∀ g' p m t u, s.c g' = .at_ p m t u → g' ≠ g := by
    rintro g' p m t u h1 rfl; rw [h1] at hcg; cases hcg
  have hst := step_rel hs1
  cases hst with
  | @regStart g' m b' hc hp =>
    refine .inl ⟨start g' _ (ne g' hp) hp, fun e he => ?_⟩
    cases List.mem_singleton.1 he; exact fun h => h
  | @unregStart g' m y t hc hp =>
    refine .inl ⟨start g' _ (ne g' hp) hp, fun e he => ?_⟩
    cases List.mem_singleton.1 he; exact fun h => h
  | @callEmpty g' m t hc hp =>
    refine .inl ⟨h, fun e he => ?_⟩
    simp only [List.mem_cons, List.not_mem_nil, or_false] at he
    rcases he with rfl | rfl
    · exact fun h => h
    · rintro rfl; exact ne _ hp rfl
  | @call g' m t u p hc hp =>
    refine .inl ⟨h, fun e he => ?_⟩
    cases List.mem_singleton.1 he; exact fun h => h
  | @reg g' a' r e ha hr =>
    by_cases hne : g = g'
    · subst hne
      -- nothing fails
      have hgo : Register.step cfg factory s.r (.go g) = some (r, e) := by
        rcases ha with rfl | rfl
        · exact hr
        · have hpg : (r.pc g) ≠ s.r.pc g := by
            intro h1
            rcases (reg_op (.inr rfl) hr).2 with h2 | h2
            · have : r.pc g = .idle := by rg_cases hr <;> simp
              exact h2.2.1 this
            · exact h2.2.1 (by rw [← h1]; exact h2.1)
          rcases step_reg hs1 with h3 | ⟨g2, o, e2, h3⟩ | ⟨g2, e2, he2, ⟨_, h3⟩ | ⟨he3, h3⟩⟩
          · exact absurd (congrFun (congrArg Register.State.pc h3) g) hpg
          · exfalso
            have h4 : r.pc g = .idle := by rg_cases hr <;> simp
            rg_cases h3
            all_goals
              simp only [upd_apply] at h4
              split at h4
              · cases h4
              · rw [h4] at hop; cases hop
          · have h5 := (reg_op (.inl rfl) h3).1 g
            by_cases hg2 : g = g2
            · subst hg2
              have : e2 = e := (List.map_inj_right (by intro x y h; cases h; rfl)).1 he2.symm
              rw [← this]; exact h3
            · exact absurd (h5 hg2) hpg
          · have := hs2 g2 he3; cases this
      rcases fresh_self hid hty h hgo with h1 | rfl | ⟨h1, rfl⟩
      · refine .inl ⟨h1.1, fun x hx' => ?_⟩
        obtain ⟨y, hy, rfl⟩ := List.mem_map.1 hx'
        cases y with
        | finish g2 res => rintro rfl; exact h1.2 _ hy _ rfl
        | _ => exact fun h => h
      · exact .inr (.inl rfl)
      · exact .inr (.inr ⟨h1, rfl⟩)
    · refine .inl ⟨fresh_other hx h hne ha hr, fun x hx' => ?_⟩
      obtain ⟨y, hy, rfl⟩ := List.mem_map.1 hx'
      rcases (reg_op ha hr).2 with h2 | ⟨_, _, res, rfl⟩
      · obtain ⟨i, rfl | ⟨_, rfl⟩⟩ := h2.2.2 y hy <;> exact fun h => h
      · cases List.mem_singleton.1 hy; exact fun h => hne h.symm
  | @c g' s' evs hc =>
    have hg : g' ≠ g := by
      cases hc
      all_goals first
        | exact nec _ _ _ _ _ ‹_›
    refine .inl ⟨?_, fun e he => ?_⟩
    · cases hc with
      | clean h1 h2 h3 h4 => exact start g' _ hg h4
      | _ => exact h
    · cases hc <;> simp only [List.mem_singleton, List.not_mem_nil] at he <;> subst he <;>
        first | exact fun h => h | exact fun h => hg h

theorem fresh_run {h : List Ev} {s : State} {g : Nat} {b : Register.Builder} (hcfg : OwnAddress cfg n)
    (hid : b.id ≠ "") (hty : b.ty ≠ "") (hr : (sureSys cfg factory (fun _ => true)).Run h s)
    (ho : Owned n b.id ty h) (ha : Apart n b.id ty h) {pre mid : List Ev}
    (he : h = pre ++ .reg (.begin g (.reg n b)) :: mid)
    (hg : Unregistered n b.id pre) (hn : ∀ e ∈ mid, ¬ Ends g e) : Fresh n b s.r g := by
  revert ho ha pre mid
  refine hr.invariant (P := fun h s => Owned n b.id ty h → Apart n b.id ty h → ∀ {pre mid : List Ev},
    h = pre ++ .reg (.begin g (.reg n b)) :: mid → Unregistered n b.id pre → (∀ e ∈ mid, ¬ Ends g e) →
    Fresh n b s.r g) ?_ ?_
  · intro _ _ pre mid he; simp at he
  · intro h s a s' evs hr hi hs ho ha pre mid he hg hn
    have ho' := owned_prefix ho
    have ha' := apart_prefix ha
    have hr' := sure_run hr
    have hst := step_rel (sure_step hs).1
    have now : ∀ l, pre = h ++ l → evs = l ++ .reg (.begin g (.reg n b)) :: mid → Fresh n b s'.r g := by
      intro l e1 e2
      have hin : Ev.reg (.begin g (.reg n b)) ∈ evs := by rw [e2]; simp
      cases hst with
      | @regStart g' m b' hc hp =>
        cases List.mem_singleton.1 hin
        have hl0 : l = [] := by
          cases l with
          | nil => rfl
          | cons z l => simp at e2
        subst hl0
        rw [List.append_nil] at e1; subst e1
        have hw := away_run hcfg (fun _ _ => rfl) hr ho' ha' hg
        exact .inl ⟨.inl (by simp), hw.map, hw.book⟩
      | unregStart => cases List.mem_singleton.1 hin
      | callEmpty => simp at hin
      | call => cases List.mem_singleton.1 hin
      | @reg g' a' r e hx hr2 =>
        obtain ⟨y, hy, hy'⟩ := List.mem_map.1 hin
        cases hy'
        rcases (reg_op hx hr2).2 with h2 | ⟨_, _, res, rfl⟩
        · obtain ⟨i, h | ⟨_, h⟩⟩ := h2.2.2 _ hy <;> cases h
        · cases List.mem_singleton.1 hy
      | c hc => cases hc <;> simp at hin
    rcases List.append_eq_append_iff.1 he with ⟨l, e1, e2⟩ | ⟨l, e1, e2⟩
    · exact now l e1 e2
    · rcases l with _ | ⟨y, l⟩
      · exact now [] (by simpa using e1.symm) (by simpa using e2.symm)
      · cases e2
        have hw := hi ho' ha' e1 hg (fun e he => hn e (List.mem_append_left _ he))
        rcases fresh_step hid hty (side_run hr' ho' ha') hw hs with h | h | ⟨_, h⟩
        · exact h.1
        all_goals
          exact absurd (show Ends g (.reg (.finish g _)) from rfl)
            (hn _ (List.mem_append_right _ (by rw [h]; exact List.mem_singleton.2 rfl)))

/-- How a registration ends that began when the actor was gone. -/
theorem fresh_end {h : List Ev} {s : State} {g : Nat} {b : Register.Builder} (hcfg : OwnAddress cfg n)
    (hid : b.id ≠ "") (hty : b.ty ≠ "") (hr : (sureSys cfg factory (fun _ => true)).Run h s)
    (ho : Owned n b.id ty h) (ha : Apart n b.id ty h) {pre mid post : List Ev} {e : Ev}
    (he : h = (pre ++ .reg (.begin g (.reg n b)) :: mid) ++ e :: post)
    (hg : Unregistered n b.id pre) (hn : ∀ e ∈ mid, ¬ Ends g e) (hee : Ends g e) :
    e = .reg (.finish g .ok) ∨ b.limit ≠ 0 ∧ e = .reg (.finish g .err) := by
  obtain ⟨hq, s0, a, s1, l, l', as, rest, hr0, hs, e1, e2, _⟩ := hr.split_at he
  have hpre : h = hq ++ (l ++ e :: post) := by rw [he, e1]; simp
  have ho' : Owned n b.id ty hq := owned_prefix (hpre ▸ ho)
  have ha' : Apart n b.id ty hq := apart_prefix (hpre ▸ ha)
  have hr' := sure_run hr0
  have key : ∃ mid', hq = pre ++ .reg (.begin g (.reg n b)) :: mid' ∧ mid = mid' ++ l := by
    have no : Ev.reg (.begin g (.reg n b)) ∉ l := by
      intro hin
      have hst := step_rel (sure_step hs).1
      generalize hev : l ++ e :: l' = evs at hst
      have m1 : Ev.reg (.begin g (.reg n b)) ∈ evs := by rw [← hev]; exact List.mem_append_left _ hin
      have m2 : e ∈ evs := by rw [← hev]; simp
      cases hst with
      | regStart => cases List.mem_singleton.1 m2; exact hee
      | unregStart => cases List.mem_singleton.1 m1
      | callEmpty => simp at m1
      | call => cases List.mem_singleton.1 m1
      | @reg g' a' r e hx hr2 =>
        obtain ⟨y, hy, hy'⟩ := List.mem_map.1 m1
        cases hy'
        rcases (reg_op hx hr2).2 with h2 | ⟨_, _, res, rfl⟩
        · obtain ⟨i, h | ⟨_, h⟩⟩ := h2.2.2 _ hy <;> cases h
        · cases List.mem_singleton.1 hy
      | c hc => cases hc <;> simp at m1
    rcases List.append_eq_append_iff.1 e1 with ⟨k, k1, k2⟩ | ⟨k, k1, k2⟩
    · rcases k with _ | ⟨y, k⟩
      · exact absurd (by rw [List.nil_append] at k2; rw [← k2]; simp) no
      · cases k2; exact ⟨k, k1, rfl⟩
    · exact absurd (by rw [k2]; simp) no
  obtain ⟨mid', rfl, rfl⟩ := key
  have hw := fresh_run hcfg hid hty hr0 ho' ha' rfl hg (fun e he => hn e (List.mem_append_left _ he))
  rcases fresh_step hid hty (side_run hr' ho' ha') hw hs with h | h | ⟨h1, h⟩
  · exact absurd hee (h.2 e (by simp))
  · exact .inl (by rcases l with _ | ⟨_, _ | _⟩ <;> simp at h; exact h.1)
  · exact .inr ⟨h1, by rcases l with _ | ⟨_, _ | _⟩ <;> simp at h; exact h.1⟩

end Braid.Live
