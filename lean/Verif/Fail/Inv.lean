import Verif.Fail.Spec

/-
Helper lemmas for C115.
-/
namespace Braid.Fail
variable {E D : Type}

theorem handle_handles (cfg : Cfg E D) (a : Nat) (ev : String) (w : Wrap E D) :
    Handles cfg a ev w (handle cfg a ev w).1 (handle cfg a ev w).2 := by
  unfold handle Handles
  cases h : cfg.chain a ev with
  | none => exact .inl ⟨rfl, rfl, rfl⟩
  | some ch =>
    refine .inr ⟨ch, rfl, ?_⟩
    dsimp only
    split <;> rename_i he <;> rw [he]
    · exact ⟨rfl, .inl ⟨rfl, rfl⟩⟩
    · exact ⟨rfl, .inr (.inl ⟨_, rfl, rfl⟩)⟩
    · exact ⟨rfl, .inr (.inr ⟨rfl, rfl⟩)⟩

/-- What the history says about a call. -/
structure Good (cfg : Cfg E D) (c : Nat) (h : List (Ev E D)) (x : Call E D) (w0 : Wrap E D) : Prop where
  beg : Ev.begin c x.actor x.event w0 ∈ h
  ret : ∀ r, Ev.ret c r ∈ h ↔ x.c = .returned r
  ref : ∀ e, Ev.refused c e ∈ h → x.c = .returned (some e) ∧ x.m = .off
  ctx : Ev.ctxEnded c ∈ h → ∃ e, x.c = .returned (some e)
  nil : x.c = .returned none → x.wt = .closed ∧ x.m ≠ .off
  fail : ∀ e, x.c = .returned (some e) → (Ev.refused c e ∈ h ∧ x.m = .off) ∨ (Ev.ctxEnded c ∈ h ∧ x.m ≠ .off ∧ ∃ k, e = cfg.ctxErr k)
  recv : x.c = .recv → x.m = .off ∧ x.wt = .waiting
  wait : x.c = .wait → x.m ≠ .off
  tmo : Ev.timeout c ∉ h → x.m ≠ .off → x.wt ≠ .waiting → x.m = .done
  off : x.m = .off → x.wt ≠ .waiting → ∃ e, x.c = .returned (some e)
  hnd : (∃ o w, Ev.handled c o w ∈ h) ↔ x.m = .release ∨ x.m = .done
  acc : Ev.accepted c ∈ h ↔ x.m ≠ .off
  w1 : Ev.timeout c ∉ h → Ev.ctxEnded c ∉ h → x.m ≠ .release → x.m ≠ .done → x.w = w0
  w2 : Ev.timeout c ∉ h → Ev.ctxEnded c ∉ h → x.m = .release ∨ x.m = .done →
    Ev.handled c (handle cfg x.actor x.event w0).2 (handle cfg x.actor x.event w0).1 ∈ h ∧
      x.w = (handle cfg x.actor x.event w0).1
  uniq : ∀ a ev w, Ev.begin c a ev w ∈ h → a = x.actor ∧ ev = x.event ∧ w = w0

theorem Good.frame {cfg : Cfg E D} {c : Nat} {h h' : List (Ev E D)} {x : Call E D} {w0 : Wrap E D} (g : Good cfg c h x w0)
    (hm : ∀ e, about e = c → (e ∈ h' ↔ e ∈ h)) : Good cfg c h' x w0 := by
  have e1 : ∀ a ev w, Ev.begin c a ev w ∈ h' ↔ Ev.begin c a ev w ∈ h := fun _ _ _ => hm _ rfl
  have e2 : ∀ r, Ev.ret c r ∈ h' ↔ Ev.ret c r ∈ h := fun _ => hm _ rfl
  have e3 : ∀ e, Ev.refused c e ∈ h' ↔ Ev.refused c e ∈ h := fun _ => hm _ rfl
  have e4 : Ev.ctxEnded c ∈ h' ↔ Ev.ctxEnded c ∈ h := hm _ rfl
  have e5 : Ev.timeout c ∈ h' ↔ Ev.timeout c ∈ h := hm _ rfl
  have e6 : ∀ o w, Ev.handled c o w ∈ h' ↔ Ev.handled c o w ∈ h := fun _ _ => hm _ rfl
  have e7 : Ev.accepted c ∈ h' ↔ Ev.accepted c ∈ h := hm _ rfl
  obtain ⟨g1, g2, g3, g4, g5, g6, g7, g8, g9, g10, g11, g12, g13, g14, g15⟩ := g
  constructor <;> (try simp only [e1, e2, e3, e4, e5, e6, e7]) <;> assumption

/-- The whole state. -/
structure Inv (cfg : Cfg E D) (h : List (Ev E D)) (s : State E D) : Prop where
  old : ∀ e, e ∈ h → about e < s.n
  fresh : ∀ c, s.n ≤ c → s.call c = none
  there : ∀ c, c < s.n → ∃ x, s.call c = some x
  good : ∀ c x, s.call c = some x → ∃ w0, Good cfg c h x w0
  q1 : ∀ a c, c ∈ s.queue a → ∃ x, s.call c = some x ∧ x.actor = a ∧ x.m = .queued
  q2 : ∀ c x, s.call c = some x → x.m = .queued → c ∈ s.queue x.actor
  q3 : ∀ a, (s.queue a).Nodup
  b1 : ∀ a c, s.busy a = some c → ∃ x, s.call c = some x ∧ x.actor = a ∧ (x.m = .handling ∨ x.m = .release)
  b2 : ∀ c x, s.call c = some x → x.m = .handling ∨ x.m = .release → s.busy x.actor = some c

theorem inv_init (cfg : Cfg E D) : Inv cfg [] init := by
  constructor <;> simp [init]

theorem Inv.lt {cfg : Cfg E D} {h : List (Ev E D)} {s : State E D} {c : Nat} {x : Call E D} (i : Inv cfg h s)
    (hx : s.call c = some x) : c < s.n := by
  apply Decidable.byContradiction
  intro hn
  rw [i.fresh c (by omega)] at hx; cases hx

/-- A step that changes one call: what holds wherever its message is. -/
theorem Inv.base {cfg : Cfg E D} {h evs : List (Ev E D)} {s : State E D} {c : Nat} {x x' : Call E D} (i : Inv cfg h s)
    (hx : s.call c = some x) (ha : ∀ e ∈ evs, about e = c)
    (hg : ∀ w0, Good cfg c h x w0 → Good cfg c (h ++ evs) x' w0) :
    (∀ e, e ∈ h ++ evs → about e < s.n) ∧ (∀ c', s.n ≤ c' → upd s.call c (some x') c' = none) ∧
    (∀ c', c' < s.n → ∃ y, upd s.call c (some x') c' = some y) ∧
    (∀ c' y, upd s.call c (some x') c' = some y → ∃ w0, Good cfg c' (h ++ evs) y w0) := by
  have hlt := i.lt hx
  refine ⟨?_, ?_, ?_, ?_⟩
  · intro e he
    rcases List.mem_append.1 he with he | he
    · exact i.old e he
    · rw [ha e he]; exact hlt
  · intro c' hc'
    rw [upd_of_ne _ _ (by omega)]; exact i.fresh c' hc'
  · intro c' hc'
    by_cases e : c' = c
    · subst e; exact ⟨x', upd_same ..⟩
    · rw [upd_of_ne _ _ e]; exact i.there c' hc'
  · intro c' y hy
    by_cases e : c' = c
    · subst e; rw [upd_same] at hy; cases hy
      obtain ⟨w0, g⟩ := i.good c' x hx
      exact ⟨w0, hg w0 g⟩
    · rw [upd_of_ne _ _ e] at hy
      obtain ⟨w0, g⟩ := i.good c' y hy
      refine ⟨w0, g.frame fun ev hev => ?_⟩
      rw [List.mem_append]
      refine ⟨fun h' => h'.resolve_right fun h2 => e ?_, .inl⟩
      rw [← hev, ha ev h2]

/-- A step that changes one call and no mailbox. -/
theorem Inv.one {cfg : Cfg E D} {h evs : List (Ev E D)} {s : State E D} {c : Nat} {x x' : Call E D} (i : Inv cfg h s)
    (hx : s.call c = some x) (ha : ∀ e ∈ evs, about e = c) (h1 : x'.actor = x.actor)
    (hm : x'.m = x.m ∨ (x.m = .handling ∧ x'.m = .release))
    (hg : ∀ w0, Good cfg c h x w0 → Good cfg c (h ++ evs) x' w0) : Inv cfg (h ++ evs) (setCall s c x') := by
  obtain ⟨t1, t2, t3, t4⟩ := i.base hx ha hg
  have hoff : x.m = .queued ↔ x'.m = .queued := by
    rcases hm with hm | ⟨h2, h3⟩
    · rw [hm]
    · simp [h2, h3]
  have hbusy : (x.m = .handling ∨ x.m = .release) ↔ (x'.m = .handling ∨ x'.m = .release) := by
    rcases hm with hm | ⟨h2, h3⟩
    · rw [hm]
    · simp [h2, h3]
  refine ⟨t1, t2, t3, t4, ?_, ?_, i.q3, ?_, ?_⟩
  · intro a c' hc'
    obtain ⟨y, hy, h3, h4⟩ := i.q1 a c' hc'
    show ∃ z, upd s.call c (some x') c' = some z ∧ _
    by_cases e : c' = c
    · subst e; rw [upd_same]; rw [hx] at hy; cases hy
      exact ⟨x', rfl, h1.trans h3, hoff.1 h4⟩
    · rw [upd_of_ne _ _ e]; exact ⟨y, hy, h3, h4⟩
  · intro c' y hy hq
    have hy : upd s.call c (some x') c' = some y := hy
    show c' ∈ s.queue y.actor
    by_cases e : c' = c
    · subst e; rw [upd_same] at hy; cases hy
      rw [h1]; exact i.q2 c' x hx (hoff.2 hq)
    · rw [upd_of_ne _ _ e] at hy; exact i.q2 c' y hy hq
  · intro a c' hc'
    obtain ⟨y, hy, h3, h4⟩ := i.b1 a c' hc'
    show ∃ z, upd s.call c (some x') c' = some z ∧ _
    by_cases e : c' = c
    · subst e; rw [upd_same]; rw [hx] at hy; cases hy
      exact ⟨x', rfl, h1.trans h3, hbusy.1 h4⟩
    · rw [upd_of_ne _ _ e]; exact ⟨y, hy, h3, h4⟩
  · intro c' y hy hq
    have hy : upd s.call c (some x') c' = some y := hy
    show s.busy y.actor = some c'
    by_cases e : c' = c
    · subst e; rw [upd_same] at hy; cases hy
      rw [h1]; exact i.b2 c' x hx (hbusy.2 hq)
    · rw [upd_of_ne _ _ e] at hy; exact i.b2 c' y hy hq

/-- `Received` puts the message into the mailbox. -/
theorem Inv.put {cfg : Cfg E D} {h evs : List (Ev E D)} {s : State E D} {c : Nat} {x x' : Call E D} (i : Inv cfg h s)
    (hx : s.call c = some x) (ha : ∀ e ∈ evs, about e = c) (h1 : x'.actor = x.actor) (hm : x.m = .off) (hm' : x'.m = .queued)
    (hg : ∀ w0, Good cfg c h x w0 → Good cfg c (h ++ evs) x' w0) :
    Inv cfg (h ++ evs) { setCall s c x' with queue := upd s.queue x.actor (s.queue x.actor ++ [c]) } := by
  obtain ⟨t1, t2, t3, t4⟩ := i.base hx ha hg
  have hnq : ∀ a, c ∉ s.queue a := by
    intro a hc
    obtain ⟨y, hy, _, h4⟩ := i.q1 a c hc
    rw [hx] at hy; cases hy; rw [hm] at h4; cases h4
  refine ⟨t1, t2, t3, t4, ?_, ?_, ?_, ?_, ?_⟩
  · intro a c' hc'
    have hc' : c' ∈ upd s.queue x.actor (s.queue x.actor ++ [c]) a := hc'
    show ∃ z, upd s.call c (some x') c' = some z ∧ _
    by_cases e : c' = c
    · subst e; rw [upd_same]
      by_cases e2 : a = x.actor
      · exact ⟨x', rfl, h1.trans e2.symm, hm'⟩
      · rw [upd_of_ne _ _ e2] at hc'; exact absurd hc' (hnq a)
    · rw [upd_of_ne _ _ e]
      by_cases e2 : a = x.actor
      · subst e2; rw [upd_same] at hc'
        rcases List.mem_append.1 hc' with hc' | hc'
        · exact i.q1 _ c' hc'
        · simp at hc'; exact absurd hc' e
      · rw [upd_of_ne _ _ e2] at hc'; exact i.q1 a c' hc'
  · intro c' y hy hq
    have hy : upd s.call c (some x') c' = some y := hy
    show c' ∈ upd s.queue x.actor (s.queue x.actor ++ [c]) y.actor
    by_cases e : c' = c
    · subst e; rw [upd_same] at hy; cases hy
      rw [h1, upd_same]; simp
    · rw [upd_of_ne _ _ e] at hy
      have := i.q2 c' y hy hq
      by_cases e2 : y.actor = x.actor
      · rw [e2, upd_same]; rw [e2] at this; exact List.mem_append_left _ this
      · rw [upd_of_ne _ _ e2]; exact this
  · intro a
    show (upd s.queue x.actor (s.queue x.actor ++ [c]) a).Nodup
    by_cases e2 : a = x.actor
    · subst e2; rw [upd_same, List.nodup_append]
      refine ⟨i.q3 _, by simp, ?_⟩
      intro u hu v hv
      simp at hv; subst hv
      intro e; subst e; exact hnq _ hu
    · rw [upd_of_ne _ _ e2]; exact i.q3 a
  · intro a c' hc'
    obtain ⟨y, hy, h3, h4⟩ := i.b1 a c' hc'
    show ∃ z, upd s.call c (some x') c' = some z ∧ _
    by_cases e : c' = c
    · subst e; rw [hx] at hy; cases hy; rw [hm] at h4; rcases h4 with h4 | h4 <;> cases h4
    · rw [upd_of_ne _ _ e]; exact ⟨y, hy, h3, h4⟩
  · intro c' y hy hq
    have hy : upd s.call c (some x') c' = some y := hy
    show s.busy y.actor = some c'
    by_cases e : c' = c
    · subst e; rw [upd_same] at hy; cases hy; rw [hm'] at hq; rcases hq with hq | hq <;> cases hq
    · rw [upd_of_ne _ _ e] at hy; exact i.b2 c' y hy hq

/-- The loop takes the message. -/
theorem Inv.take {cfg : Cfg E D} {h : List (Ev E D)} {s : State E D} {a c : Nat} {q : List Nat} {x : Call E D} (i : Inv cfg h s)
    (hx : s.call c = some x) (hb : s.busy a = none) (hq : s.queue a = c :: q)
    (hg : ∀ w0, Good cfg c h x w0 → Good cfg c (h ++ []) { x with m := .handling } w0) :
    Inv cfg (h ++ []) { setCall s c { x with m := .handling } with queue := upd s.queue a q, busy := upd s.busy a (some c) } := by
  obtain ⟨t1, t2, t3, t4⟩ := i.base hx (by simp) hg
  obtain ⟨y, hy, hact, hmq⟩ := i.q1 a c (by rw [hq]; simp)
  rw [hx] at hy; cases hy
  have hnd := i.q3 a
  rw [hq] at hnd
  have hnq : ∀ b, b ≠ a → c ∉ s.queue b := by
    intro b hb hc
    obtain ⟨y, hy, h3, _⟩ := i.q1 b c hc
    rw [hx] at hy; cases hy; exact hb (h3.symm.trans hact)
  refine ⟨t1, t2, t3, t4, ?_, ?_, ?_, ?_, ?_⟩
  · intro b c' hc0
    have hc' : c' ∈ upd s.queue a q b := hc0
    clear hc0
    show ∃ z, upd s.call c (some { x with m := .handling }) c' = some z ∧ _
    by_cases e2 : b = a
    · subst e2; rw [upd_same] at hc'
      have hne : c' ≠ c := by intro e; subst e; exact (List.nodup_cons.1 hnd).1 hc'
      rw [upd_of_ne _ _ hne]
      exact i.q1 b c' (by rw [hq]; exact List.mem_cons_of_mem _ hc')
    · rw [upd_of_ne _ _ e2] at hc'
      have hne : c' ≠ c := by intro e; subst e; exact hnq b e2 hc'
      rw [upd_of_ne _ _ hne]; exact i.q1 b c' hc'
  · intro c' y hy hm
    have hy : upd s.call c (some { x with m := .handling }) c' = some y := hy
    show c' ∈ upd s.queue a q y.actor
    by_cases e : c' = c
    · subst e; rw [upd_same] at hy; cases hy; cases hm
    · rw [upd_of_ne _ _ e] at hy
      have := i.q2 c' y hy hm
      by_cases e2 : y.actor = a
      · rw [e2, hq] at this; rw [e2, upd_same]
        exact (List.mem_cons.1 this).resolve_left e
      · rw [upd_of_ne _ _ e2]; exact this
  · intro b
    show (upd s.queue a q b).Nodup
    by_cases e2 : b = a
    · subst e2; rw [upd_same]; exact (List.nodup_cons.1 hnd).2
    · rw [upd_of_ne _ _ e2]; exact i.q3 b
  · intro b c' hc'
    have hc' : upd s.busy a (some c) b = some c' := hc'
    show ∃ z, upd s.call c (some { x with m := .handling }) c' = some z ∧ _
    by_cases e2 : b = a
    · subst e2; rw [upd_same] at hc'; cases hc'; rw [upd_same]; exact ⟨_, rfl, hact, .inl rfl⟩
    · rw [upd_of_ne _ _ e2] at hc'
      obtain ⟨y, hy, h3, h4⟩ := i.b1 b c' hc'
      have hne : c' ≠ c := by intro e; subst e; rw [hx] at hy; cases hy; exact e2 (h3.symm.trans hact)
      rw [upd_of_ne _ _ hne]; exact ⟨y, hy, h3, h4⟩
  · intro c' y hy hm
    have hy : upd s.call c (some { x with m := .handling }) c' = some y := hy
    show upd s.busy a (some c) y.actor = some c'
    by_cases e : c' = c
    · subst e; rw [upd_same] at hy; cases hy
      show upd s.busy a (some c') x.actor = some c'
      rw [hact, upd_same]
    · rw [upd_of_ne _ _ e] at hy
      have := i.b2 c' y hy hm
      by_cases e2 : y.actor = a
      · rw [e2, hb] at this; cases this
      · rw [upd_of_ne _ _ e2]; exact this

/-- The loop is done with the message. -/
theorem Inv.free {cfg : Cfg E D} {h : List (Ev E D)} {s : State E D} {a c : Nat} {x : Call E D} (i : Inv cfg h s)
    (hx : s.call c = some x) (hb : s.busy a = some c)
    (hg : ∀ w0, Good cfg c h x w0 → Good cfg c (h ++ []) { x with m := .done } w0) :
    Inv cfg (h ++ []) { setCall s c { x with m := .done } with busy := upd s.busy a none } := by
  obtain ⟨t1, t2, t3, t4⟩ := i.base hx (by simp) hg
  obtain ⟨y, hy, hact, hmq⟩ := i.b1 a c hb
  rw [hx] at hy; cases hy
  refine ⟨t1, t2, t3, t4, ?_, ?_, i.q3, ?_, ?_⟩
  · intro b c' hc'
    obtain ⟨y, hy, h3, h4⟩ := i.q1 b c' hc'
    show ∃ z, upd s.call c (some { x with m := .done }) c' = some z ∧ _
    have hne : c' ≠ c := by
      intro e; subst e; rw [hx] at hy; cases hy; rw [h4] at hmq; rcases hmq with h | h <;> cases h
    rw [upd_of_ne _ _ hne]; exact ⟨y, hy, h3, h4⟩
  · intro c' y hy hm
    have hy : upd s.call c (some { x with m := .done }) c' = some y := hy
    show c' ∈ s.queue y.actor
    by_cases e : c' = c
    · subst e; rw [upd_same] at hy; cases hy; cases hm
    · rw [upd_of_ne _ _ e] at hy; exact i.q2 c' y hy hm
  · intro b c' hc'
    have hc' : upd s.busy a none b = some c' := hc'
    show ∃ z, upd s.call c (some { x with m := .done }) c' = some z ∧ _
    by_cases e2 : b = a
    · subst e2; rw [upd_same] at hc'; cases hc'
    · rw [upd_of_ne _ _ e2] at hc'
      obtain ⟨y, hy, h3, h4⟩ := i.b1 b c' hc'
      have hne : c' ≠ c := by intro e; subst e; rw [hx] at hy; cases hy; exact e2 (h3.symm.trans hact)
      rw [upd_of_ne _ _ hne]; exact ⟨y, hy, h3, h4⟩
  · intro c' y hy hm
    have hy : upd s.call c (some { x with m := .done }) c' = some y := hy
    show upd s.busy a none y.actor = some c'
    by_cases e : c' = c
    · subst e; rw [upd_same] at hy; cases hy; rcases hm with hm | hm <;> cases hm
    · rw [upd_of_ne _ _ e] at hy
      have := i.b2 c' y hy hm
      by_cases e2 : y.actor = a
      · rw [e2, hb] at this; cases this; exact absurd rfl e
      · rw [upd_of_ne _ _ e2]; exact this

theorem inv_begin {cfg : Cfg E D} {h : List (Ev E D)} {s : State E D} (i : Inv cfg h s) (a : Nat) (ev : String) (w : Wrap E D) :
    Inv cfg (h ++ [.begin s.n a ev w]) { setCall s s.n ⟨a, ev, w, .recv, .off, .waiting⟩ with n := s.n + 1 } := by
  have hn : ∀ e : Ev E D, about e = s.n → e ∉ h := fun e he hm => by have := i.old e hm; omega
  refine ⟨?_, ?_, ?_, ?_, ?_, ?_, i.q3, ?_, ?_⟩
  · intro e he
    show about e < s.n + 1
    rcases List.mem_append.1 he with he | he
    · have := i.old e he; omega
    · simp at he; subst he; simp [about]
  · intro c hc
    have hc : s.n + 1 ≤ c := hc
    show upd s.call s.n _ c = none
    rw [upd_of_ne _ _ (by omega)]; exact i.fresh c (by omega)
  · intro c hc
    have hc : c < s.n + 1 := hc
    show ∃ y, upd s.call s.n _ c = some y
    by_cases e : c = s.n
    · subst e; exact ⟨_, upd_same ..⟩
    · rw [upd_of_ne _ _ e]; exact i.there c (by omega)
  · intro c y hy
    have hy : upd s.call s.n _ c = some y := hy
    by_cases e : c = s.n
    · subst e; rw [upd_same] at hy; cases hy
      refine ⟨w, ?_⟩
      have n0 : ∀ a ev w, Ev.begin s.n a ev w ∉ h := fun _ _ _ => hn _ rfl
      have n1 : ∀ r, Ev.ret s.n r ∉ h := fun r => hn _ rfl
      have n2 : ∀ e, Ev.refused s.n e ∉ h := fun e => hn _ rfl
      have n3 : Ev.ctxEnded s.n ∉ h := hn _ rfl
      have n4 : ∀ o w, Ev.handled s.n o w ∉ h := fun o w => hn _ rfl
      have n5 : Ev.accepted s.n ∉ h := hn _ rfl
      constructor <;> simp [n0, n1, n2, n3, n4, n5] <;> (try intro a ev w h1 h2 h3; exact ⟨h1, h2, h3⟩)
    · rw [upd_of_ne _ _ e] at hy
      obtain ⟨w0, g⟩ := i.good c y hy
      refine ⟨w0, g.frame fun ev hev => ?_⟩
      rw [List.mem_append]
      refine ⟨fun h' => h'.resolve_right fun h2 => e ?_, .inl⟩
      simp at h2; subst h2; exact hev.symm
  · intro b c hc
    obtain ⟨y, hy, h3⟩ := i.q1 b c hc
    show ∃ z, upd s.call s.n _ c = some z ∧ _
    rw [upd_of_ne _ _ (by have := i.lt hy; omega)]; exact ⟨y, hy, h3⟩
  · intro c y hy hm
    have hy : upd s.call s.n _ c = some y := hy
    show c ∈ s.queue y.actor
    by_cases e : c = s.n
    · subst e; rw [upd_same] at hy; cases hy; cases hm
    · rw [upd_of_ne _ _ e] at hy; exact i.q2 c y hy hm
  · intro b c hc
    obtain ⟨y, hy, h3⟩ := i.b1 b c hc
    show ∃ z, upd s.call s.n _ c = some z ∧ _
    rw [upd_of_ne _ _ (by have := i.lt hy; omega)]; exact ⟨y, hy, h3⟩
  · intro c y hy hm
    have hy : upd s.call s.n _ c = some y := hy
    show s.busy y.actor = some c
    by_cases e : c = s.n
    · subst e; rw [upd_same] at hy; cases hy; rcases hm with hm | hm <;> cases hm
    · rw [upd_of_ne _ _ e] at hy; exact i.b2 c y hy hm

theorem Good.refuse {cfg : Cfg E D} {c : Nat} {h : List (Ev E D)} {x : Call E D} {w0 : Wrap E D} (g : Good cfg c h x w0)
    (hc : x.c = .recv) (e : E) :
    Good cfg c (h ++ [.refused c e, .ret c (some e)]) { x with c := .returned (some e), wt := .closed } w0 := by
  obtain ⟨g1, g2, g3, g4, g5, g6, g7, g8, g9, g10, g11, g12, g13, g14, g15⟩ := g
  obtain ⟨gm, gw⟩ := g7 hc
  simp only [hc, gm, gw] at *
  constructor <;> simp_all <;> (first | exact fun r => eq_comm | exact ⟨_, rfl⟩ | exact g15)

theorem Good.accept {cfg : Cfg E D} {c : Nat} {h : List (Ev E D)} {x : Call E D} {w0 : Wrap E D} (g : Good cfg c h x w0)
    (hc : x.c = .recv) :
    Good cfg c (h ++ [.accepted c]) { x with c := .wait, m := .queued } w0 := by
  obtain ⟨g1, g2, g3, g4, g5, g6, g7, g8, g9, g10, g11, g12, g13, g14, g15⟩ := g
  obtain ⟨gm, gw⟩ := g7 hc
  simp only [hc, gm, gw] at *
  constructor <;> simp_all <;> (first | exact fun r => eq_comm | exact ⟨_, rfl⟩ | exact g15)

theorem Good.taken {cfg : Cfg E D} {c : Nat} {h : List (Ev E D)} {x : Call E D} {w0 : Wrap E D} (g : Good cfg c h x w0)
    (hm : x.m = .queued) :
    Good cfg c (h ++ []) { x with m := .handling } w0 := by
  obtain ⟨g1, g2, g3, g4, g5, g6, g7, g8, g9, g10, g11, g12, g13, g14, g15⟩ := g
  constructor <;> simp_all <;> (first | exact fun r => eq_comm | exact ⟨_, rfl⟩ | exact g15)

theorem Good.ran {cfg : Cfg E D} {c : Nat} {h : List (Ev E D)} {x : Call E D} {w0 : Wrap E D} (g : Good cfg c h x w0)
    (hm : x.m = .handling) :
    Good cfg c (h ++ [.handled c (handle cfg x.actor x.event x.w).2 (handle cfg x.actor x.event x.w).1]) { x with w := (handle cfg x.actor x.event x.w).1, m := .release } w0 := by
  obtain ⟨g1, g2, g3, g4, g5, g6, g7, g8, g9, g10, g11, g12, g13, g14, g15⟩ := g
  constructor <;> simp_all <;> (first | exact fun r => eq_comm | exact ⟨_, rfl⟩ | exact g15)

theorem Good.released {cfg : Cfg E D} {c : Nat} {h : List (Ev E D)} {x : Call E D} {w0 : Wrap E D} (g : Good cfg c h x w0)
    (hm : x.m = .release) :
    Good cfg c (h ++ []) { x with m := .done } w0 := by
  obtain ⟨g1, g2, g3, g4, g5, g6, g7, g8, g9, g10, g11, g12, g13, g14, g15⟩ := g
  constructor <;> simp_all <;> (first | exact fun r => eq_comm | exact ⟨_, rfl⟩ | exact g15)

theorem Good.late {cfg : Cfg E D} {c : Nat} {h : List (Ev E D)} {x : Call E D} {w0 : Wrap E D} (g : Good cfg c h x w0)
    (hw : x.wt = .waiting) (hm : ¬ x.m = .off) :
    Good cfg c (h ++ [.timeout c]) { x with wt := .close, w := { x.w with err := x.w.err.or (some cfg.waitTimeout) } } w0 := by
  obtain ⟨g1, g2, g3, g4, g5, g6, g7, g8, g9, g10, g11, g12, g13, g14, g15⟩ := g
  constructor <;> simp_all <;> (first | exact fun r => eq_comm | exact ⟨_, rfl⟩ | exact g15)

theorem Good.seen {cfg : Cfg E D} {c : Nat} {h : List (Ev E D)} {x : Call E D} {w0 : Wrap E D} (g : Good cfg c h x w0)
    (hw : x.wt = .waiting) (hm : x.m = .done) :
    Good cfg c (h ++ []) { x with wt := .close } w0 := by
  obtain ⟨g1, g2, g3, g4, g5, g6, g7, g8, g9, g10, g11, g12, g13, g14, g15⟩ := g
  constructor <;> simp_all <;> (first | exact fun r => eq_comm | exact ⟨_, rfl⟩ | exact g15)

theorem Good.closed {cfg : Cfg E D} {c : Nat} {h : List (Ev E D)} {x : Call E D} {w0 : Wrap E D} (g : Good cfg c h x w0)
    (hw : x.wt = .close) : Good cfg c (h ++ []) { x with wt := .closed } w0 := by
  obtain ⟨g1, g2, g3, g4, g5, g6, g7, g8, g9, g10, g11, g12, g13, g14, g15⟩ := g
  rw [List.append_nil]
  exact ⟨g1, g2, g3, g4, fun hn => ⟨rfl, (g5 hn).2⟩, g6, fun hr => (by have := (g7 hr).2; rw [hw] at this; cases this), g8,
    fun a b _ => g9 a b (by rw [hw]; nofun), fun a _ => g10 a (by rw [hw]; nofun), g11, g12, g13, g14, g15⟩

theorem Good.ended {cfg : Cfg E D} {c : Nat} {h : List (Ev E D)} {x : Call E D} {w0 : Wrap E D} (g : Good cfg c h x w0)
    (hc : x.c = .wait) (hw : x.wt = .closed) :
    Good cfg c (h ++ [.ret c none]) { x with c := .returned none } w0 := by
  obtain ⟨g1, g2, g3, g4, g5, g6, g7, g8, g9, g10, g11, g12, g13, g14, g15⟩ := g
  constructor <;> simp_all <;> (first | exact fun r => eq_comm | exact ⟨_, rfl⟩ | exact g15)

theorem Good.cut {cfg : Cfg E D} {c : Nat} {h : List (Ev E D)} {x : Call E D} {w0 : Wrap E D} (g : Good cfg c h x w0)
    (hc : x.c = .wait) :
    Good cfg c (h ++ [.ctxEnded c, .ret c (some (cfg.ctxErr x.w.err))]) { x with c := .returned (some (cfg.ctxErr x.w.err)), w := { x.w with err := some (cfg.ctxErr x.w.err) } } w0 := by
  obtain ⟨g1, g2, g3, g4, g5, g6, g7, g8, g9, g10, g11, g12, g13, g14, g15⟩ := g
  constructor <;> simp_all <;> (first | exact fun r => eq_comm | exact ⟨_, rfl⟩ | exact g15)

theorem inv_step {cfg : Cfg E D} {h : List (Ev E D)} {s s' : State E D} {a : Act E D} {evs : List (Ev E D)} (i : Inv cfg h s)
    (hs : step cfg s a = some (s', evs)) : Inv cfg (h ++ evs) s' := by
  cases a with
  | begin a ev w => simp only [step] at hs; cases hs; exact inv_begin i a ev w
  | recv c refuse =>
    simp only [step] at hs
    split at hs
    · rename_i x hx
      split at hs
      · rename_i hc
        split at hs <;> cases hs
        · exact i.one hx (by simp [about]) rfl (.inl rfl) fun w0 g => g.refuse hc _
        · refine i.put hx (by simp [about]) rfl ?_ rfl fun w0 g => g.accept hc
          obtain ⟨w0, g⟩ := i.good c x hx; exact (g.recv hc).1
      · cases hs
    · cases hs
  | take a =>
    simp only [step] at hs
    split at hs
    · rename_i c q hb hq
      split at hs
      · rename_i x hx
        cases hs
        obtain ⟨y, hy, hact, hmq⟩ := i.q1 a c (by rw [hq]; simp)
        rw [hx] at hy; cases hy
        exact i.take hx hb hq fun w0 g => g.taken hmq
      · cases hs
    · cases hs
  | run a =>
    simp only [step] at hs
    split at hs
    · rename_i c hb
      split at hs
      · rename_i x hx
        obtain ⟨y, hy, hact, hmq⟩ := i.b1 a c hb
        rw [hx] at hy; cases hy
        subst hact
        split at hs <;> cases hs
        rename_i hm
        exact i.one hx (by simp [about]) rfl (.inr ⟨hm, rfl⟩) fun w0 g => g.ran hm
      · cases hs
    · cases hs
  | release a =>
    simp only [step] at hs
    split at hs
    · rename_i c hb
      split at hs
      · rename_i x hx
        split at hs <;> cases hs
        rename_i hm
        exact i.free hx hb fun w0 g => g.released hm
      · cases hs
    · cases hs
  | waiter c timeout =>
    simp only [step] at hs
    split at hs
    · rename_i x hx
      split at hs
      · rename_i hw
        split at hs
        · cases hs
        · rename_i hm
          split at hs
          · cases hs
            exact i.one hx (by simp [about]) rfl (.inl rfl) fun w0 g => g.late hw hm
          · split at hs <;> cases hs
            rename_i hm2
            exact i.one hx (by simp) rfl (.inl rfl) fun w0 g => g.seen hw hm2
      · rename_i hw
        cases hs
        exact i.one hx (by simp) rfl (.inl rfl) fun w0 g => g.closed hw
      · cases hs
    · cases hs
  | ret c =>
    simp only [step] at hs
    split at hs
    · rename_i x hx
      split at hs <;> cases hs
      rename_i hc hw
      exact i.one hx (by simp [about]) rfl (.inl rfl) fun w0 g => g.ended hc hw
    · cases hs
  | ctxEnd c =>
    simp only [step] at hs
    split at hs
    · rename_i x hx
      split at hs <;> cases hs
      rename_i hc
      exact i.one hx (by simp [about]) rfl (.inl rfl) fun w0 g => g.cut hc
    · cases hs

theorem inv_run {cfg : Cfg E D} {h : List (Ev E D)} {s : State E D} (hr : (sys cfg).Run h s) : Inv cfg h s :=
  Lts.Run.invariant (P := Inv cfg) (inv_init cfg) (fun _ _ _ _ _ _ hi hs => inv_step hi hs) hr

end Braid.Fail
