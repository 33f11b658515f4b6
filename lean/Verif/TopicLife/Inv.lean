import Verif.TopicLife.Spec

/-
Invariants of a topic.
-/
namespace Braid.TopicLife
open Spec

/-- The call a goroutine is in. -/
def Pc.op : Pc → Option Op
  | .idle => none
  | .nExists => some .create
  | .nAdd => some .create
  | .nDel _ => some .create
  | .pAdd e b => some (.pub e b)
  | .sGroup c f => some (.sub c f)
  | .cGroups => some .close
  | .cLen => some .close
  | .cDel => some .close

theorem entry_op (o : Op) : (entry o).op = some o := by cases o <;> rfl

macro "tl_cases" h:ident : tactic => `(tactic| (
  simp only [step, stepGo] at $h:ident
  repeat' (split at $h:ident)
  all_goals (try (cases $h:ident))))

theorem activeOf_append (h k : List Ev) : activeOf (h ++ k) = k.foldl (fun l e => match e with
    | .begin g o => (g, o) :: l
    | .finish g _ _ => l.filter (·.1 ≠ g)
    | _ => l) (activeOf h) := by
  induction k generalizing h with
  | nil => simp
  | cons e k ih =>
    rw [show h ++ e :: k = (h ++ [e]) ++ k by simp, ih, List.foldl_cons]
    congr 1
    cases e <;> simp [activeOf, active]

/-- Calls in progress are seen to be so. -/
theorem act_run {h : List Ev} {s : State} (hr : sys.Run h s) : ∀ g o, (s.pc g).op = some o → (g, o) ∈ activeOf h := by
  refine hr.invariant (P := fun h s => ∀ g o, (s.pc g).op = some o → (g, o) ∈ activeOf h) (by simp [sys, init, Pc.op]) ?_
  intro h s a s' evs _ hi hs g o ho
  replace hs : step s a = some (s', evs) := hs
  have h0 := hi g o
  rw [activeOf_append]
  cases a <;> tl_cases hs
  all_goals simp only [at_, xadd, xdel, upd_apply] at ho
  all_goals (try split at ho)
  all_goals first
    | (cases ho; done)
    | (subst_vars; simp_all [Pc.op, entry]; done)
    | (simp_all; done)
    | skip
  · subst_vars
    rw [entry_op] at ho
    cases ho
    simp

/-- A step brings in only what its events tell. -/
theorem step_frame {s s' : State} {a : Act} {evs : List Ev} (hs : step s a = some (s', evs)) {t' : Stream}
    (ht : s'.stream = some t') :
    (∀ x ∈ t'.groups, .grouped x.1 ∈ evs ∨ ∃ t, s.stream = some t ∧ ∃ y ∈ t.groups, y.1 = x.1) ∧
    ∀ x ∈ t'.entries, .added x.2 ∈ evs ∨ ∃ t, s.stream = some t ∧ x ∈ t.entries := by
  cases a <;> tl_cases hs
  all_goals simp only [at_, xadd, xdel] at ht
  all_goals
    cases hst : s.stream with
    | none => simp_all <;> (try subst ht) <;> simp
    | some t => simp_all <;> (try subst ht) <;> grind [advance]

/-- Where the entry of a `newTopic` comes from. -/
theorem new_step {s s' : State} {a : Act} {evs : List Ev} (hs : step s a = some (s', evs)) {t' : Stream}
    (ht : s'.stream = some t') {id : Nat} (hid : (id, Content.new) ∈ t'.entries) :
    (∃ g, s'.pc g = .nDel id) ∨ (∃ g, .fault g .create ∈ evs) ∨
      (∃ t, s.stream = some t ∧ (id, Content.new) ∈ t.entries) ∧ ∀ g, s.pc g = .nDel id → s'.pc g = .nDel id := by
  cases a with
  | start g o =>
    tl_cases hs
    exact .inr (.inr ⟨⟨t', ht, hid⟩, fun g' h => by simp only [at_, upd_apply]; split <;> simp_all⟩)
  | read c =>
    tl_cases hs
    simp only [Option.some.injEq] at ht
    subst ht
    exact .inr (.inr ⟨⟨_, ‹s.stream = some _›, by exact hid⟩, fun _ h => h⟩)
  | del c i =>
    tl_cases hs
    simp only [xdel] at ht
    simp only [Option.map_eq_some_iff] at ht
    obtain ⟨t, h1, h2⟩ := ht
    subst h2
    exact .inr (.inr ⟨⟨t, h1, (List.mem_filter.1 hid).1⟩, fun _ h => h⟩)
  | expire =>
    tl_cases hs
    cases ht
  | go g net =>
    tl_cases hs
    all_goals simp only [at_, xadd, xdel, Option.some.injEq, reduceCtorEq] at ht
    all_goals first
      | (refine .inr (.inl ⟨g, ?_⟩); simp; done)
      | skip
    all_goals
      cases hst : s.stream with
      | none => simp_all [at_, upd_apply, xadd] <;> (try subst ht) <;> grind
      | some t => simp_all [at_, upd_apply, xadd, xdel] <;> (try subst ht) <;> grind

/-- What is in the stream was added, and the entry of a `newTopic` is there only while it is in progress, or after a fault. -/
structure RInv (h : List Ev) (s : State) : Prop where
  added : ∀ t, s.stream = some t → ∀ x ∈ t.entries, .added x.2 ∈ h
  new : ∀ t, s.stream = some t → ∀ id, (id, Content.new) ∈ t.entries → (∃ g, s.pc g = .nDel id) ∨ ∃ g, .fault g .create ∈ h

theorem rinv_run {h : List Ev} {s : State} (hr : sys.Run h s) : RInv h s := by
  refine hr.invariant (P := RInv) ⟨by simp [sys, init], by simp [sys, init]⟩ ?_
  intro h s a s' evs _ hi hs
  replace hs : step s a = some (s', evs) := hs
  refine ⟨fun t' ht x hx => ?_, fun t' ht id hid => ?_⟩
  · rcases (step_frame hs ht).2 x hx with h1 | ⟨t, h1, h2⟩
    · exact List.mem_append_right _ h1
    · exact List.mem_append_left _ (hi.added t h1 x h2)
  · rcases new_step hs ht hid with h1 | ⟨g, h1⟩ | ⟨⟨t, h1, h2⟩, h3⟩
    · exact .inl h1
    · exact .inr ⟨g, List.mem_append_right _ h1⟩
    · rcases hi.new t h1 id h2 with ⟨g, h4⟩ | ⟨g, h4⟩
      · exact .inl ⟨g, h3 g h4⟩
      · exact .inr ⟨g, List.mem_append_left _ h4⟩

/-- What is in the stream while a `Close` is in progress. -/
def CInv (h : List Ev) (s : State) : Prop :=
  ∀ g, (s.pc g).op = some .close → ∃ p q, h = p ++ .begin g .close :: q ∧ (∀ o b, .finish g o b ∉ q) ∧
    (s.pc g ≠ .cGroups → ∀ t, s.stream = some t → ∀ x ∈ t.groups, .grouped x.1 ∈ q) ∧
    (s.pc g = .cDel → ∀ t, s.stream = some t → ∀ x ∈ t.entries, .added x.2 ∈ q)

/-- The goroutine of an action. -/
def Act.who : Act → Option Nat
  | .start g _ => some g
  | .go g _ => some g
  | _ => none

/-- A goroutine that does not move. -/
theorem others {s s' : State} {a : Act} {evs : List Ev} (hs : step s a = some (s', evs)) {g : Nat} (hg : a.who ≠ some g) :
    s'.pc g = s.pc g ∧ ∀ o b, .finish g o b ∉ evs := by
  cases a <;> tl_cases hs
  all_goals simp [at_, xadd, xdel, upd_apply, Act.who] at hg ⊢
  all_goals grind

theorem cinv_run {h : List Ev} {s : State} (hr : sys.Run h s) : CInv h s := by
  refine hr.invariant (P := CInv) (by intro g hg; simp [sys, init, Pc.op] at hg) ?_
  intro h s a s' evs _ hi hs g hg
  replace hs : step s a = some (s', evs) := hs
  by_cases hw : a.who = some g
  · cases a with
    | start g' o =>
      simp only [Act.who, Option.some.injEq] at hw
      subst hw
      simp only [step] at hs
      split at hs
      · cases hs
        simp only [at_, upd_same, entry_op, Option.some.injEq] at hg
        subst hg
        exact ⟨h, [], rfl, by simp, by simp [at_, entry], by simp [at_, entry]⟩
      · cases hs
    | go g' net =>
      simp only [Act.who, Option.some.injEq] at hw
      subst hw
      have h0 := hi g'
      tl_cases hs
      all_goals simp only [at_, upd_same, Pc.op, reduceCtorEq, Option.some.injEq] at hg
      all_goals
        have hpc := ‹s.pc g' = _›
        obtain ⟨p, q, e1, e2, e3, e4⟩ := h0 (by rw [hpc]; rfl)
        refine ⟨p, q, by simpa using e1, e2, ?_, ?_⟩
        all_goals simp_all [at_]
        all_goals first | exact e3 | (intro t ht a b hab; simp_all)
    | read _ => cases hw
    | del _ _ => cases hw
    | expire => cases hw
  · obtain ⟨hpc, hf⟩ := others hs hw
    rw [hpc] at hg
    obtain ⟨p, q, e1, e2, e3, e4⟩ := hi g hg
    refine ⟨p, q ++ evs, by rw [e1]; simp, ?_, ?_, ?_⟩
    · intro o b hm
      rcases List.mem_append.1 hm with hm | hm
      · exact e2 o b hm
      · exact hf o b hm
    · intro hne t' ht x hx
      rw [hpc] at hne
      rcases (step_frame hs ht).1 x hx with h1 | ⟨t, h1, y, h2, h3⟩
      · exact List.mem_append_right _ h1
      · exact List.mem_append_left _ (h3 ▸ e3 hne t h1 y h2)
    · intro hne t' ht x hx
      rw [hpc] at hne
      rcases (step_frame hs ht).2 x hx with h1 | ⟨t, h1, h2⟩
      · exact List.mem_append_right _ h1
      · exact List.mem_append_left _ (e4 hne t h1 x h2)

/-- Ids tell entries apart, and what was read or is to be deleted is known by its id. -/
structure IdInv (h : List Ev) (s : State) : Prop where
  lt : ∀ t, s.stream = some t → ∀ x ∈ t.entries, x.1 < s.next
  uniq : ∀ t, s.stream = some t → ∀ x ∈ t.entries, ∀ y ∈ t.entries, x.1 = y.1 → x = y
  seen : ∀ grp id, (grp, id) ∈ s.seen → id < s.next ∧ ∀ t, s.stream = some t → ∀ c, (id, c) ∈ t.entries → .got grp c ∈ h
  ndel : ∀ g id, s.pc g = .nDel id → id < s.next ∧ ∀ t, s.stream = some t → ∀ c, (id, c) ∈ t.entries → c = .new

/-- A step that adds no entry. -/
theorem IdInv.frame {h evs : List Ev} {s s' : State} (hi : IdInv h s) (hn : s'.next = s.next) (hse : s'.seen = s.seen)
    (ht : ∀ t', s'.stream = some t' → ∃ t, s.stream = some t ∧ ∀ x ∈ t'.entries, x ∈ t.entries)
    (hpc : ∀ g id, s'.pc g = .nDel id → s.pc g = .nDel id) : IdInv (h ++ evs) s' := by
  refine ⟨fun t' h1 x hx => ?_, fun t' h1 x hx y hy => ?_, fun grp id hm => ?_, fun g id hg => ?_⟩
  · obtain ⟨t, h2, h3⟩ := ht t' h1
    rw [hn]
    exact hi.lt t h2 x (h3 x hx)
  · obtain ⟨t, h2, h3⟩ := ht t' h1
    exact hi.uniq t h2 x (h3 x hx) y (h3 y hy)
  · rw [hse] at hm
    rw [hn]
    refine ⟨(hi.seen grp id hm).1, fun t' h1 c hc => ?_⟩
    obtain ⟨t, h2, h3⟩ := ht t' h1
    exact List.mem_append_left _ ((hi.seen grp id hm).2 t h2 c (h3 _ hc))
  · rw [hn]
    refine ⟨(hi.ndel g id (hpc g id hg)).1, fun t' h1 c hc => ?_⟩
    obtain ⟨t, h2, h3⟩ := ht t' h1
    exact (hi.ndel g id (hpc g id hg)).2 t h2 c (h3 _ hc)

/-- A step that adds an entry. -/
theorem IdInv.add {h evs : List Ev} {s : State} (hi : IdInv h s) {c : Content} {g : Nat} {p : Pc}
    (hp : ∀ id, p = .nDel id → id = s.next ∧ c = .new) : IdInv (h ++ evs) (at_ (xadd s c) g p) := by
  have hold : ∀ x : Nat × Content, x ∈ (s.stream.getD ⟨[], 0, []⟩).entries → ∃ t, s.stream = some t ∧ x ∈ t.entries := by
    intro x hx
    cases hst : s.stream with
    | none => rw [hst] at hx; cases hx
    | some t => rw [hst] at hx; exact ⟨t, rfl, hx⟩
  refine ⟨fun t' h1 x hx => ?_, fun t' h1 x hx y hy hxy => ?_, fun grp id hm => ?_, fun g' id hg => ?_⟩
  · simp only [at_, xadd, Option.some.injEq] at h1 ⊢
    subst h1
    rcases List.mem_append.1 hx with hx | hx
    · obtain ⟨t, h2, h3⟩ := hold x hx
      have := hi.lt t h2 x h3
      omega
    · simp only [List.mem_singleton] at hx
      subst hx
      simp
  · simp only [at_, xadd, Option.some.injEq] at h1
    subst h1
    rcases List.mem_append.1 hx with hx | hx <;> rcases List.mem_append.1 hy with hy | hy
    · obtain ⟨t, h2, h3⟩ := hold x hx
      obtain ⟨t2, h4, h5⟩ := hold y hy
      rw [h2] at h4
      cases h4
      exact hi.uniq t h2 x h3 y h5 hxy
    · obtain ⟨t, h2, h3⟩ := hold x hx
      have := hi.lt t h2 x h3
      simp only [List.mem_singleton] at hy
      subst hy
      simp only at hxy
      omega
    · obtain ⟨t, h2, h3⟩ := hold y hy
      have := hi.lt t h2 y h3
      simp only [List.mem_singleton] at hx
      subst hx
      simp only at hxy
      omega
    · rw [List.mem_singleton.1 hx, List.mem_singleton.1 hy]
  · have h0 := hi.seen grp id hm
    refine ⟨by simp only [at_, xadd]; omega, fun t' h1 c' hc => ?_⟩
    simp only [at_, xadd, Option.some.injEq] at h1
    subst h1
    rcases List.mem_append.1 hc with hc | hc
    · obtain ⟨t, h2, h3⟩ := hold _ hc
      exact List.mem_append_left _ (h0.2 t h2 _ h3)
    · simp only [List.mem_singleton, Prod.mk.injEq] at hc
      omega
  · simp only [at_, upd_apply] at hg
    split at hg
    · obtain ⟨h2, h3⟩ := hp id hg
      refine ⟨by simp only [at_, xadd]; omega, fun t' h1 c' hc => ?_⟩
      simp only [at_, xadd, Option.some.injEq] at h1
      subst h1
      rcases List.mem_append.1 hc with hc | hc
      · obtain ⟨t, h4, h5⟩ := hold _ hc
        have := hi.lt t h4 _ h5
        simp only at this
        omega
      · simp only [List.mem_singleton, Prod.mk.injEq] at hc
        rw [hc.2, h3]
    · have h0 := hi.ndel g' id hg
      refine ⟨by simp only [at_, xadd]; omega, fun t' h1 c' hc => ?_⟩
      simp only [at_, xadd, Option.some.injEq] at h1
      subst h1
      rcases List.mem_append.1 hc with hc | hc
      · obtain ⟨t, h4, h5⟩ := hold _ hc
        exact h0.2 t h4 _ h5
      · simp only [List.mem_singleton, Prod.mk.injEq] at hc
        omega

theorem id_run {h : List Ev} {s : State} (hr : sys.Run h s) : IdInv h s := by
  refine hr.invariant (P := IdInv) ⟨by simp [sys, init], by simp [sys, init], by simp [sys, init], by simp [sys, init]⟩ ?_
  intro h s a s' evs _ hi hs
  replace hs : step s a = some (s', evs) := hs
  have hpc : ∀ {g : Nat} {p : Pc} (s : State), (∀ id, p ≠ .nDel id) → ∀ g' id, (at_ s g p).pc g' = .nDel id → s.pc g' = .nDel id := by
    intro g p s hp g' id hg
    simp only [at_, upd_apply] at hg
    split at hg
    · exact absurd hg (hp id)
    · exact hg
  have hxd : ∀ id t', (xdel s id).stream = some t' → ∃ t, s.stream = some t ∧ ∀ x ∈ t'.entries, x ∈ t.entries := by
    intro id t' h1
    simp only [xdel, Option.map_eq_some_iff] at h1
    obtain ⟨t, h2, h3⟩ := h1
    refine ⟨t, h2, fun x hx => ?_⟩
    subst h3
    exact (List.mem_filter.1 hx).1
  cases a with
  | start g o =>
    tl_cases hs
    exact hi.frame rfl rfl (fun t h => ⟨t, h, fun _ hx => hx⟩) (hpc s (by cases o <;> simp [entry]))
  | expire =>
    tl_cases hs
    exact hi.frame rfl rfl (fun t h => by cases h) (fun _ _ h => h)
  | del grp id =>
    tl_cases hs
    exact hi.frame rfl rfl (hxd id) (fun _ _ h => h)
  | read grp =>
    simp only [step] at hs
    split at hs
    · cases hs
    · rename_i t hst
      split at hs
      · cases hs
      · rename_i l hl
        split at hs
        · cases hs
        · rename_i e he
          cases hs
          have hmem := List.mem_of_find?_eq_some he
          have h1 := hi.frame (evs := [.got grp e.2]) (s' := { s with stream := some { t with groups := advance t.groups grp e.1 } })
            rfl rfl (fun t' h => by cases h; exact ⟨t, hst, fun _ hx => hx⟩) (fun _ _ h => h)
          refine ⟨h1.lt, h1.uniq, fun grp' id hm => ?_, h1.ndel⟩
          rcases List.mem_cons.1 hm with hm | hm
          · cases hm
            refine ⟨hi.lt t hst e hmem, fun t' ht c hc => ?_⟩
            cases ht
            have := hi.uniq t hst _ hc e hmem rfl
            rw [← this]
            simp
          · exact h1.seen grp' id hm
  | go g net =>
    have hsame : ∀ {p : Pc} {evs : List Ev}, (∀ id, p ≠ .nDel id) → IdInv (h ++ evs) (at_ s g p) :=
      fun hp => hi.frame rfl rfl (fun t h => ⟨t, h, fun _ hx => hx⟩) (hpc s hp)
    tl_cases hs
    all_goals first
      | exact hsame (by simp)
      | exact hi.add (by simp)
      | exact hi.frame rfl rfl (hxd _) (hpc s (by simp))
      | (refine hi.frame rfl rfl (fun t h => ?_) (hpc s (by simp)); cases h; done)
      | (refine hi.frame rfl rfl (fun t h => ?_) (hpc s (by simp)); cases h; refine ⟨_, ‹s.stream = some _›, ?_⟩; exact fun _ hx => hx)

/-- A message that was added is in the stream or was read, erased or has expired. -/
def KInv (h : List Ev) (s : State) : Prop :=
  ∀ n e b, .added (.msg n e b) ∈ h → (∃ t, s.stream = some t ∧ ∃ id, (id, Content.msg n e b) ∈ t.entries) ∨
    (∃ grp, .got grp (.msg n e b) ∈ h) ∨ (∃ g l gs, .erased g l gs ∈ h ∧ .msg n e b ∈ l) ∨
    ∃ h1 h2, h = h1 ++ .expired :: h2 ∧ .added (.msg n e b) ∈ h1

/-- What becomes of an entry in a step. -/
theorem kept_step {h evs : List Ev} {s s' : State} {a : Act} (hi : IdInv h s) (hs : step s a = some (s', evs)) {t : Stream}
    (ht : s.stream = some t) {id n : Nat} {e : String} {b : List UInt8} (hm : (id, Content.msg n e b) ∈ t.entries) :
    (∃ t', s'.stream = some t' ∧ (id, Content.msg n e b) ∈ t'.entries) ∨ (∃ grp, .got grp (.msg n e b) ∈ h) ∨
      (∃ g l gs, .erased g l gs ∈ evs ∧ .msg n e b ∈ l) ∨ evs = [.expired] := by
  have hxd : ∀ i, ((i, Content.msg n e b) ∈ t.entries → .msg n e b = Content.new ∨ ∃ grp, .got grp (.msg n e b) ∈ h) →
      (∃ t', (xdel s i).stream = some t' ∧ (id, Content.msg n e b) ∈ t'.entries) ∨ ∃ grp, .got grp (.msg n e b) ∈ h := by
    intro i h1
    by_cases hid : i = id
    · rcases h1 (hid ▸ hm) with h2 | h2
      · cases h2
      · exact .inr h2
    · refine .inl ⟨_, by simp only [xdel, ht, Option.map_some]; rfl, ?_⟩
      simp only [List.mem_filter, hm, true_and, decide_eq_true_eq]
      exact fun h => hid h.symm
  cases a with
  | start g o =>
    tl_cases hs
    exact .inl ⟨t, ht, hm⟩
  | expire =>
    tl_cases hs
    exact .inr (.inr (.inr rfl))
  | read grp =>
    tl_cases hs
    rename_i ht' _ _ _ _ _ _
    exact .inl ⟨_, rfl, by simp_all⟩
  | del grp i =>
    tl_cases hs
    rename_i hse
    rcases hxd i (fun h => .inr ⟨grp, (hi.seen grp i hse).2 t ht _ h⟩) with h1 | h1
    · exact .inl h1
    · exact .inr (.inl h1)
  | go g net =>
    tl_cases hs
    all_goals first
      | exact .inl ⟨t, ht, hm⟩
      | (refine .inl ⟨_, rfl, ?_⟩; simp_all; done)
      | (refine .inr (.inr (.inl ⟨g, _, _, List.mem_cons_self, ?_⟩)); simp only [ht, Option.map_some, Option.getD_some]; exact List.mem_map_of_mem hm)
      | skip
    all_goals
      have hpc := ‹s.pc g = _›
      rcases hxd _ (fun h => .inl ((hi.ndel g _ hpc).2 t ht _ h)) with h1 | h1
      · exact .inl h1
      · exact .inr (.inl h1)

theorem kinv_run {h : List Ev} {s : State} (hr : sys.Run h s) : KInv h s := by
  refine hr.invariant (P := KInv) (by intro n e b hm; cases hm) ?_
  intro h s a s' evs hr0 hi hs n e b hm
  replace hs : step s a = some (s', evs) := hs
  rcases List.mem_append.1 hm with hm | hm
  · rcases hi n e b hm with ⟨t, ht, id, hid⟩ | ⟨grp, hg⟩ | ⟨g, l, gs, h1, h2⟩ | ⟨h1, h2, h3, h4⟩
    · rcases kept_step (id_run hr0) hs ht hid with ⟨t', h1, h2⟩ | ⟨grp, h1⟩ | ⟨g, l, gs, h1, h2⟩ | h1
      · exact .inl ⟨t', h1, id, h2⟩
      · exact .inr (.inl ⟨grp, List.mem_append_left _ h1⟩)
      · exact .inr (.inr (.inl ⟨g, l, gs, List.mem_append_right _ h1, h2⟩))
      · exact .inr (.inr (.inr ⟨h, [], by rw [h1], hm⟩))
    · exact .inr (.inl ⟨grp, List.mem_append_left _ hg⟩)
    · exact .inr (.inr (.inl ⟨g, l, gs, List.mem_append_left _ h1, h2⟩))
    · exact .inr (.inr (.inr ⟨h1, h2 ++ evs, by rw [h3]; simp, h4⟩))
  · left
    cases a <;> tl_cases hs
    all_goals simp [xadd, at_] at hm ⊢
    all_goals simp_all

/-- The channel has no group and no call creates one. -/
def NoGroup (grp : String) (s : State) : Prop :=
  (∀ t, s.stream = some t → ∀ x ∈ t.groups, x.1 ≠ grp) ∧ ∀ g f, s.pc g ≠ .sGroup grp f

theorem NoGroup.step {grp : String} {s s' : State} {a : Act} {evs : List Ev} (hi : NoGroup grp s)
    (hs : TopicLife.step s a = some (s', evs)) (hb : ∀ g f, .begin g (.sub grp f) ∉ evs) :
    NoGroup grp s' ∧ ∀ c, .got grp c ∉ evs := by
  obtain ⟨hg, hp⟩ := hi
  have hgr : .grouped grp ∉ evs := by
    intro hm
    cases a <;> tl_cases hs
    all_goals simp at hm
    all_goals
      subst hm
      exact hp _ _ ‹s.pc _ = _›
  refine ⟨⟨fun t' ht x hx he => ?_, fun g f hpc => ?_⟩, fun c hm => ?_⟩
  · rcases (step_frame hs ht).1 x hx with h1 | ⟨t, h1, y, h2, h3⟩
    · exact hgr (he ▸ h1)
    · exact hg t h1 y h2 (h3.trans he)
  · have h0 := hp g f
    cases a with
    | start g' o =>
      tl_cases hs
      simp only [at_, upd_apply] at hpc
      split at hpc
      · cases o <;> simp [entry] at hpc
        exact hb g' f (by rw [hpc.1, hpc.2]; simp)
      · exact h0 hpc
    | go g' net =>
      tl_cases hs
      all_goals simp only [at_, upd_apply, xadd, xdel] at hpc
      all_goals split at hpc <;> first | (cases hpc; done) | exact h0 hpc
    | _ =>
      tl_cases hs
      exact h0 hpc
  · have hl : ∀ l : List (String × Nat), (∀ x ∈ l, x.1 ≠ grp) → lastOf l grp = none := by
      intro l hl
      simp only [lastOf, List.lookup_eq_none_iff]
      exact fun x hx => by simpa using fun h => hl x hx h.symm
    cases a <;> tl_cases hs
    all_goals simp at hm
    have h1 := hl _ (hg _ ‹s.stream = some _›)
    simp_all

end Braid.TopicLife
