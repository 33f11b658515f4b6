import Verif.Trace.Spec

/-
C124: the spans of calls form the tree of the calls.
-/
namespace Braid.Trace
open Braid Spec

theorem Spec.Shows.append {h h' : List Ev} {w : Nat} {x : Option Nat} (hs : Shows h w x) (hu : Unused w h') : Shows (h ++ h') w x := by
  have app : ∀ {p : List Ev}, Unused w p → Unused w (p ++ h') := fun hp c a b hm => by
    rcases List.mem_append.1 hm with hm | hm
    · exact hp c a b hm
    · exact hu c a b hm
  cases hs with
  | used h => rw [List.append_assoc]; exact .used (app h)
  | new h => rw [List.append_assoc]; exact .new (app h)
  | derived h hv => rw [List.append_assoc]; exact .derived (app h) hv

/-- What holds in every state. -/
structure Inv (h : List Ev) (s : State) : Prop where
  shows_ : ∀ w, w < s.wrappers → Shows h w (s.ctx w).head?
  lt : ∀ w c, c ∈ s.ctx w → c < s.calls
  made : ∀ w v, .made w v ∈ h → w < s.wrappers
  started : ∀ c w p q, .started c w p q ∈ h → c < s.calls ∧ w < s.wrappers ∧ (∀ d, p = some d → d < c)

theorem unused_of {h : List Ev} {s : State} (i : Inv h s) {w : Nat} (hw : s.wrappers ≤ w) : Unused w h := fun c p q hm => by
  have := (i.started c w p q hm).2.1
  omega

theorem inv_run {h : List Ev} {s : State} (hr : sys.Run h s) : Inv h s := by
  refine hr.invariant (P := Inv) ⟨fun _ h => by simp [sys, init] at h, fun _ _ h => by simp [sys, init] at h, by simp, by simp⟩ ?_
  intro h s a s' evs hr i hs
  cases a with
  | fresh =>
    cases hs
    refine ⟨?_, ?_, ?_, ?_⟩
    · intro w hw
      dsimp only at hw ⊢
      by_cases he : w = s.wrappers
      · subst he
        rw [upd_same]
        exact .new (by simp [Unused])
      · rw [upd_of_ne _ _ he]
        exact (i.shows_ w (by omega)).append (by simp [Unused])
    · intro w c hc
      dsimp only [upd_apply] at hc
      split at hc
      · cases hc
      · exact i.lt w c hc
    · intro w v hm
      rcases List.mem_append.1 hm with hm | hm
      · have := i.made w v hm; dsimp only; omega
      · simp at hm; dsimp only; omega
    · intro c w p q hm
      have := i.started c w p q (by simpa using hm)
      dsimp only
      exact ⟨this.1, by omega, this.2.2⟩
  | derive v =>
    simp only [sys, step] at hs
    split at hs
    · rename_i hv
      cases hs
      refine ⟨?_, ?_, ?_, ?_⟩
      · intro w hw
        dsimp only at hw ⊢
        by_cases he : w = s.wrappers
        · subst he
          rw [upd_same]
          exact .derived (by simp [Unused]) (i.shows_ v hv)
        · rw [upd_of_ne _ _ he]
          exact (i.shows_ w (by omega)).append (by simp [Unused])
      · intro w c hc
        dsimp only [upd_apply] at hc
        split at hc
        · exact i.lt v c hc
        · exact i.lt w c hc
      · intro w v hm
        rcases List.mem_append.1 hm with hm | hm
        · have := i.made w v hm; dsimp only; omega
        · simp at hm; dsimp only; omega
      · intro c w p q hm
        have := i.started c w p q (by simpa using hm)
        dsimp only
        exact ⟨this.1, by omega, this.2.2⟩
    · cases hs
  | call v p =>
    simp only [sys, step] at hs
    split at hs
    · rename_i hv
      cases hs
      refine ⟨?_, ?_, ?_, ?_⟩
      · intro w hw
        dsimp only at hw ⊢
        by_cases he : w = v
        · subst he
          rw [upd_same]
          exact .used (by simp [Unused])
        · rw [upd_of_ne _ _ he]
          exact (i.shows_ w hw).append (by simp [Unused, he])
      · intro w c hc
        dsimp only [upd_apply] at hc ⊢
        split at hc
        · rcases List.mem_cons.1 hc with rfl | hc
          · omega
          · have := i.lt v c hc; omega
        · have := i.lt w c hc; omega
      · intro w v hm
        exact i.made w v (by simpa using hm)
      · intro c w p q hm
        rcases List.mem_append.1 hm with hm | hm
        · have := i.started c w p q hm
          dsimp only
          exact ⟨by omega, this.2⟩
        · simp at hm
          obtain ⟨rfl, rfl, rfl, rfl⟩ := hm
          exact ⟨Nat.lt_succ_self _, hv.1, hv.2⟩
    · cases hs
  | ret c =>
    simp only [sys, step] at hs
    split at hs
    · cases hs
      exact ⟨fun w hw => (i.shows_ w hw).append (by simp [Unused]), i.lt, fun w v hm => i.made w v (by simpa using hm),
        fun c w p q hm => i.started c w p q (by simpa using hm)⟩
    · cases hs

/-- The state in which a span was started. -/
theorem started_at {h : List Ev} {s : State} (hr : sys.Run h s) {pre post : List Ev} {c w : Nat} {p q : Option Nat}
    (he : h = pre ++ .started c w p q :: post) : ∃ s0, sys.Run pre s0 ∧ w < s0.wrappers ∧ q = (s0.ctx w).head? ∧ c = s0.calls ∧
      ∀ d, p = some d → d < s0.calls := by
  obtain ⟨h0, s0, a, s1, e1, e2, as, rest, hr0, hs, hp, -, -⟩ := hr.split_at he
  cases a with
  | fresh =>
    simp only [sys, step, Option.some.injEq, Prod.mk.injEq] at hs
    have := hs.2; cases e1 <;> simp at this
  | derive v =>
    simp only [sys, step] at hs
    split at hs
    · simp only [Option.some.injEq, Prod.mk.injEq] at hs
      have := hs.2; cases e1 <;> simp at this
    · cases hs
  | call v p' =>
    simp only [sys, step] at hs
    split at hs
    · rename_i hv
      simp only [Option.some.injEq, Prod.mk.injEq] at hs
      have := hs.2
      cases e1 with
      | nil =>
        simp at this
        obtain ⟨⟨rfl, rfl, rfl, rfl⟩, -⟩ := this
        exact ⟨s0, by rw [hp, List.append_nil]; exact hr0, hv.1, rfl, rfl, hv.2⟩
      | cons => simp at this
    · cases hs
  | ret v =>
    simp only [sys, step] at hs
    split at hs
    · simp only [Option.some.injEq, Prod.mk.injEq] at hs
      have := hs.2; cases e1 <;> simp at this
    · cases hs

/-- The state in which a wrapper was made. -/
theorem made_at {h : List Ev} {s : State} (hr : sys.Run h s) {pre post : List Ev} {w : Nat} {x : Option Nat}
    (he : h = pre ++ .made w x :: post) : ∃ s0, sys.Run pre s0 ∧ w = s0.wrappers := by
  obtain ⟨h0, s0, a, s1, e1, e2, as, rest, hr0, hs, hp, -, -⟩ := hr.split_at he
  cases a with
  | fresh =>
    simp only [sys, step, Option.some.injEq, Prod.mk.injEq] at hs
    have := hs.2
    cases e1 with
    | nil => simp at this; exact ⟨s0, by rw [hp, List.append_nil]; exact hr0, this.1.1.symm⟩
    | cons => simp at this
  | derive v =>
    simp only [sys, step] at hs
    split at hs
    · simp only [Option.some.injEq, Prod.mk.injEq] at hs
      have := hs.2
      cases e1 with
      | nil => simp at this; exact ⟨s0, by rw [hp, List.append_nil]; exact hr0, this.1.1.symm⟩
      | cons => simp at this
    · cases hs
  | call v p' =>
    simp only [sys, step] at hs
    split at hs
    · simp only [Option.some.injEq, Prod.mk.injEq] at hs
      have := hs.2; cases e1 <;> simp at this
    · cases hs
  | ret v =>
    simp only [sys, step] at hs
    split at hs
    · simp only [Option.some.injEq, Prod.mk.injEq] at hs
      have := hs.2; cases e1 <;> simp at this
    · cases hs

/-- **C124**, what happens: the parent of a span is what the context of the wrapper shows: the span of the last call made with the
wrapper, returned or not, whichever code made it, or else what the wrapper showed from which it was made. -/
theorem C124_exact {h : List Ev} {s : State} (hr : sys.Run h s) {pre post : List Ev} {c w : Nat} {p q : Option Nat}
    (he : h = pre ++ .started c w p q :: post) : Shows pre w q := by
  obtain ⟨s0, hr0, hw, hq, -⟩ := started_at hr he
  rw [hq]
  exact (inv_run hr0).shows_ w hw

theorem made_once {h : List Ev} {s : State} (hr : sys.Run h s) {a b a' b' : List Ev} {w : Nat} {x x' : Option Nat}
    (h1 : h = a ++ .made w x :: b) (h2 : h = a' ++ .made w x' :: b') : a = a' ∧ x = x' := by
  have key : ∀ {t u v : List Ev} {y y' : Option Nat}, h = t ++ .made w y :: u ++ .made w y' :: v → False := fun he => by
    obtain ⟨s0, hr0, hw⟩ := made_at hr he
    have := (inv_run hr0).made w _ (List.mem_append_right _ (List.mem_cons_self ..))
    omega
  rcases List.append_eq_append_iff.1 (h1.symm.trans h2) with ⟨t, ht, hb⟩ | ⟨t, ht, hb⟩
  · cases t with
    | nil =>
      simp only [List.append_nil, List.nil_append, List.cons.injEq, Ev.made.injEq, true_and] at ht hb
      exact ⟨ht.symm, hb.1⟩
    | cons e t =>
      simp only [List.cons_append, List.cons.injEq] at hb
      rw [ht, ← hb.1] at h2
      exact (key h2).elim
  · cases t with
    | nil =>
      simp only [List.append_nil, List.nil_append, List.cons.injEq, Ev.made.injEq, true_and] at ht hb
      exact ⟨ht, hb.1.symm⟩
    | cons e t =>
      simp only [List.cons_append, List.cons.injEq] at hb
      rw [ht, ← hb.1] at h1
      exact (key h1).elim

theorem started_once {h : List Ev} {s : State} (hr : sys.Run h s) {t u v : List Ev} {c w w' : Nat} {p p' q q' : Option Nat}
    (he : h = t ++ .started c w p q :: u ++ .started c w' p' q' :: v) : False := by
  obtain ⟨s0, hr0, -, -, hc, -⟩ := started_at hr he
  have := ((inv_run hr0).started c w p q (List.mem_append_right _ (List.mem_cons_self ..))).1
  omega

/-- What a wrapper shows that has been used: the last call. -/
theorem shows_last {h : List Ev} {w : Nat} {x : Option Nat} (hs : Shows h w x) {a b : List Ev} {c : Nat} {p q : Option Nat}
    (he : h = a ++ .started c w p q :: b) (hm : ∀ y, .made w y ∉ b) :
    ∃ d a' b' p' q', x = some d ∧ .started c w p q :: b = a' ++ .started d w p' q' :: b' ∧ Unused w b' := by
  cases hs with
  | @used t u d _ p1 q1 h1 =>
    rcases List.append_eq_append_iff.1 he with ⟨r, hr, hb⟩ | ⟨r, hr, hb⟩
    · cases r with
      | nil => exact ⟨d, [], u, p1, q1, rfl, by simpa using hb.symm, h1⟩
      | cons e r =>
        simp only [List.cons_append, List.cons.injEq] at hb
        rw [hb.2] at h1
        exact absurd (List.mem_append_right _ (List.mem_cons_self ..)) (h1 c p q)
    · exact ⟨d, r, u, p1, q1, rfl, hb, h1⟩
  | @new t u _ h1 =>
    rcases List.append_eq_append_iff.1 he with ⟨r, hr, hb⟩ | ⟨r, hr, hb⟩
    · cases r with
      | nil => simp at hb
      | cons e r =>
        simp only [List.cons_append, List.cons.injEq] at hb
        rw [hb.2] at h1
        exact absurd (List.mem_append_right _ (List.mem_cons_self ..)) (h1 c p q)
    · cases r with
      | nil => simp at hb
      | cons e r =>
        simp only [List.cons_append, List.cons.injEq] at hb
        exact absurd (by rw [hb.2]; simp) (hm none)
  | @derived t u _ v x h1 hv =>
    rcases List.append_eq_append_iff.1 he with ⟨r, hr, hb⟩ | ⟨r, hr, hb⟩
    · cases r with
      | nil => simp at hb
      | cons e r =>
        simp only [List.cons_append, List.cons.injEq] at hb
        rw [hb.2] at h1
        exact absurd (List.mem_append_right _ (List.mem_cons_self ..)) (h1 c p q)
    · cases r with
      | nil => simp at hb
      | cons e r =>
        simp only [List.cons_append, List.cons.injEq] at hb
        exact absurd (by rw [hb.2]; simp) (hm (some v))

/-- A wrapper is made before it is used. -/
theorem not_made_after {h : List Ev} {s : State} (hr : sys.Run h s) {a b : List Ev} {c w : Nat} {p q : Option Nat}
    (he : h = a ++ .started c w p q :: b) (y : Option Nat) : .made w y ∉ b := fun hm => by
  obtain ⟨b1, b2, rfl⟩ := List.append_of_mem hm
  obtain ⟨s0, hr0, hw⟩ := made_at hr (pre := a ++ .started c w p q :: b1) (w := w) (x := y) (post := b2) (by rw [he]; simp)
  have := ((inv_run hr0).started c w p q (List.mem_append_right _ (List.mem_cons_self ..))).2.1
  omega

/-- **C124**, the part that holds: if wrappers are used as `Tidy` says, then the parent of the span of a call is the span of the call
for which the code runs that makes it. What is missing: wrappers that are used for several calls, see the refutation. -/
theorem C124_tidy_partial {h : List Ev} {s : State} (hr : sys.Run h s) (ht : Tidy h) {c w : Nat} {p q : Option Nat}
    (hm : .started c w p q ∈ h) : q = p := by
  obtain ⟨pre, post, he⟩ := List.append_of_mem hm
  obtain ⟨hu, hp⟩ := ht pre c w p q post he
  obtain ⟨s0, hr0, -⟩ := started_at hr he
  have hs := C124_exact hr he
  cases hs with
  | @used a b d _ p1 q1 h1 => exact absurd (List.mem_append_right _ (List.mem_cons_self ..)) (hu d p1 q1)
  | @new a b _ h1 =>
    cases p with
    | none => rfl
    | some d =>
      obtain ⟨l1, l2, l3, v, p', q', h2, -⟩ := hp
      have := (made_once hr0 rfl h2).2
      cases this
  | @derived a b _ v x h1 hv =>
    cases p with
    | none =>
      obtain ⟨a', b', h2⟩ := List.append_of_mem hp
      have := (made_once hr0 rfl h2).2
      cases this
    | some d =>
      obtain ⟨l1, l2, l3, v', p', q', h2, h3⟩ := hp
      obtain ⟨ha, hx⟩ := made_once hr0 rfl h2
      cases hx
      rw [ha] at hv
      obtain ⟨s1, hr1, -⟩ := made_at hr0 rfl
      rw [ha] at hr1
      obtain ⟨d', a', b', p2, q2, rfl, h4, -⟩ := shows_last hv rfl (not_made_after hr1 rfl)
      cases a' with
      | nil => simp at h4; rw [h4.1.1]
      | cons e r =>
        simp only [List.cons_append, List.cons.injEq] at h4
        exact absurd (by rw [h4.2]; simp) (h3 d' p2 q2)

/-- **C124** is violated whenever code makes two calls with one wrapper: they cannot both have the span of the call for which the
code runs as their parent. (The later one becomes a child of the last call before with this wrapper, though it has returned.) -/
theorem C124_two_refuted {h : List Ev} {s : State} (hr : sys.Run h s) {pre mid post : List Ev} {c c' w : Nat} {p q q' : Option Nat}
    (he : h = pre ++ .started c w p q :: mid ++ .started c' w p q' :: post) : ¬ (q = p ∧ q' = p) := by
  rintro ⟨-, h1⟩
  obtain ⟨s0, hr0, -⟩ := started_at hr he
  obtain ⟨d, a', b', p2, q2, hd, h4, -⟩ := shows_last (C124_exact hr he) rfl (not_made_after hr0 rfl)
  obtain ⟨s1, hr1, -, -, hc, hlt⟩ := started_at hr0 rfl
  have h5 := hlt d (by rw [← h1, hd])
  cases a' with
  | nil => simp at h4; omega
  | cons e r =>
    simp only [List.cons_append, List.cons.injEq] at h4
    obtain ⟨s2, hr2, -, -, hc2, -⟩ := started_at hr0 (pre := pre ++ .started c w p q :: r) (c := d) (w := w) (p := p2) (q := q2)
      (post := b') (by rw [h4.2]; simp)
    have := ((inv_run hr2).started c w p q (List.mem_append_right _ (List.mem_cons_self ..))).1
    omega

/-- The handler of call 0 makes two calls with wrappers of its own and a third with the wrapper of the first of them. -/
example : ∃ s, sys.Run [.made 0 none, .started 0 0 none none, .made 1 (some 0), .made 2 (some 0), .started 1 1 (some 0) (some 0),
    .finished 1, .started 2 2 (some 0) (some 0), .finished 2, .started 3 1 (some 0) (some 1)] s :=
  ⟨_, Lts.run_of_exec (M := sys) (as := [.fresh, .call 0 none, .derive 0, .derive 0, .call 1 (some 0), .ret 1, .call 2 (some 0),
    .ret 2, .call 1 (some 0)]) rfl⟩

/-- **C124** as stated is violated. -/
theorem C124_refuted : ¬ ∀ h s, sys.Run h s → ∀ c w p q, .started c w p q ∈ h → q = p := fun hall => by
  have := hall _ _ (Lts.run_of_exec (M := sys) (as := [.fresh, .call 0 none, .ret 0, .call 0 none]) rfl) 1 0 none (some 0) (by decide)
  cases this

/-- The hypotheses of `C124_tidy_partial` are met by the calls before the last. -/
example : Tidy [.made 0 none, .started 0 0 none none, .made 1 (some 0), .made 2 (some 0), .started 1 1 (some 0) (some 0),
    .finished 1, .started 2 2 (some 0) (some 0), .finished 2] := by
  intro pre c w p q post he
  rcases pre with _ | ⟨e1, _ | ⟨e2, _ | ⟨e3, _ | ⟨e4, _ | ⟨e5, _ | ⟨e6, _ | ⟨e7, _ | ⟨e8, pre⟩⟩⟩⟩⟩⟩⟩⟩ <;> simp at he
  · obtain ⟨rfl, ⟨rfl, rfl, rfl, rfl⟩, -⟩ := he
    exact ⟨by simp [Unused], by simp⟩
  · obtain ⟨rfl, rfl, rfl, rfl, ⟨rfl, rfl, rfl, rfl⟩, -⟩ := he
    exact ⟨by simp [Unused], [.made 0 none], [], [.made 2 (some 0)], 0, none, none, rfl, by simp [Unused]⟩
  · obtain ⟨rfl, rfl, rfl, rfl, rfl, rfl, ⟨rfl, rfl, rfl, rfl⟩, -⟩ := he
    exact ⟨by simp [Unused], [.made 0 none], [.made 1 (some 0)], [.started 1 1 (some 0) (some 0), .finished 1], 0, none, none, rfl,
      by simp [Unused]⟩

end Braid.Trace
