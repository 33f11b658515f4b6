import Verif.Fail.Inv
import Verif.Lib.Total

/-
Helper lemmas for C115: calls end by themselves, and callers cannot tell chains apart.
-/
namespace Braid.Fail
variable {E D : Type}

/-! ## Internal steps end -/

def wC : CPc E → Nat
  | .wait => 1
  | _ => 0

def wM : MPc → Nat
  | .off => 0
  | .queued => 3
  | .handling => 2
  | .release => 1
  | .done => 0

def wW : WPc → Nat
  | .waiting => 2
  | .close => 1
  | .closed => 0

/-- Steps a call can still take. -/
def weight : Option (Call E D) → Nat
  | none => 0
  | some x => wC x.c + wM x.m + wW x.wt

def work (s : State E D) : Nat := total (fun c => weight (s.call c)) s.n

theorem total_le {f : Nat → Nat} {k : Nat} (hf : ∀ i, f i ≤ k) (n : Nat) : total f n ≤ k * n := by
  induction n with
  | zero => simp [total]
  | succ n ih => have := hf n; simp only [total, Nat.mul_succ]; omega

theorem work_le (s : State E D) : work s ≤ 6 * s.n := by
  apply total_le
  intro i
  cases s.call i with
  | none => simp [weight]
  | some x => cases hc : x.c <;> cases hm : x.m <;> cases hw : x.wt <;> simp [weight, wC, wM, wW, hc, hm, hw]

theorem work_upd {s s' : State E D} {c : Nat} {x x' : Call E D} (hx : s.call c = some x) (hc : c < s.n)
    (h1 : s'.call = upd s.call c (some x')) (h2 : s'.n = s.n)
    (h3 : wC x'.c + wM x'.m + wW x'.wt < wC x.c + wM x.m + wW x.wt) : work s' < work s := by
  have h4 := total_upd s.call weight c (some x') s.n hc
  rw [hx] at h4
  simp only [weight] at h4
  unfold work
  rw [h1, h2]
  change total (fun j => weight (upd s.call c (some x') j)) s.n < _
  simp only [weight] at h4 ⊢
  omega

theorem work_step {cfg : Cfg E D} {h : List (Ev E D)} {s s' : State E D} {a : Act E D} {evs : List (Ev E D)} (i : Inv cfg h s)
    (ha : Internal a) (hs : step cfg s a = some (s', evs)) : work s' < work s ∧ s'.n = s.n := by
  cases a with
  | begin a ev w => cases ha
  | recv c refuse => cases ha
  | ctxEnd c => cases ha
  | take a =>
    simp only [step] at hs
    split at hs
    · rename_i c q hb hq
      split at hs
      · rename_i x hx
        cases hs
        obtain ⟨y, hy, _, hm⟩ := i.q1 a c (by rw [hq]; simp)
        rw [hx] at hy; cases hy
        exact ⟨work_upd hx (i.lt hx) rfl rfl (by simp [hm, wM]), rfl⟩
      · cases hs
    · cases hs
  | run a =>
    simp only [step] at hs
    split at hs
    · rename_i c hb
      split at hs
      · rename_i x hx
        split at hs <;> cases hs
        rename_i hm
        exact ⟨work_upd hx (i.lt hx) rfl rfl (by simp [hm, wM]), rfl⟩
      · cases hs
    · cases hs
  | release a =>
    simp only [step] at hs
    split at hs
    · rename_i c hb
      split at hs
      · rename_i x hx
        split at hs <;> cases hs
        rename_i hm
        exact ⟨work_upd hx (i.lt hx) rfl rfl (by simp [hm, wM]), rfl⟩
      · cases hs
    · cases hs
  | waiter c timeout =>
    cases timeout with
    | true => cases ha
    | false =>
      simp only [step] at hs
      split at hs
      · rename_i x hx
        split at hs
        · rename_i hw
          split at hs
          · cases hs
          · simp at hs
            obtain ⟨hm, hs, _⟩ := hs
            subst hs
            exact ⟨work_upd hx (i.lt hx) rfl rfl (by simp [hw, wW]), rfl⟩
        · rename_i hw
          cases hs
          exact ⟨work_upd hx (i.lt hx) rfl rfl (by simp [hw, wW]), rfl⟩
        · cases hs
      · cases hs
  | ret c =>
    simp only [step] at hs
    split at hs
    · rename_i x hx
      split at hs <;> cases hs
      rename_i hc hw
      exact ⟨work_upd hx (i.lt hx) rfl rfl (by simp [hc, wC]), rfl⟩
    · cases hs

theorem work_exec {cfg : Cfg E D} {as : List (Act E D)} : ∀ {h : List (Ev E D)} {s s' : State E D} {evs : List (Ev E D)},
    Inv cfg h s → (∀ a ∈ as, Internal a) → (sys cfg).exec s as = some (s', evs) → as.length + work s' ≤ work s := by
  induction as with
  | nil => intro h s s' evs _ _ he; simp [Lts.exec] at he; simp [he.1]
  | cons a as ih =>
    intro h s s' evs hi ha he
    simp only [Lts.exec] at he
    split at he
    · cases he
    · rename_i s1 e1 h1
      split at he
      · cases he
      · rename_i s2 e2 h2
        cases he
        have w1 := (work_step hi (ha a (by simp)) h1).1
        have w2 := ih (inv_step hi h1) (fun b hb => ha b (by simp [hb])) h2
        simp only [List.length_cons]
        omega

/-- When no internal step is left, every accepted message has been handled and its call has returned. -/
theorem at_rest {cfg : Cfg E D} {h : List (Ev E D)} {s : State E D} (i : Inv cfg h s)
    (hq : ∀ a, Internal a → step cfg s a = none) {c : Nat} (ha : Ev.accepted c ∈ h) :
    (∃ o w, Ev.handled c o w ∈ h) ∧ ∃ r, Ev.ret c r ∈ h := by
  obtain ⟨x, hx⟩ := i.there c (i.old _ ha)
  obtain ⟨w0, g⟩ := i.good c x hx
  have hoff := g.acc.1 ha
  have nobusy : ∀ a, s.busy a = none := by
    intro a
    cases hb : s.busy a with
    | none => rfl
    | some d =>
      obtain ⟨y, hy, _, hm⟩ := i.b1 a d hb
      rcases hm with hm | hm
      · have := hq (.run a) trivial
        simp [step, hb, hy, hm] at this
      · have := hq (.release a) trivial
        simp [step, hb, hy, hm] at this
  have noqueue : ∀ a, s.queue a = [] := by
    intro a
    cases hl : s.queue a with
    | nil => rfl
    | cons d q =>
      obtain ⟨y, hy, _, hm⟩ := i.q1 a d (by rw [hl]; simp)
      have := hq (.take a) trivial
      simp [step, hl, nobusy a, hy] at this
  have hm : x.m = .done := by
    cases hm : x.m with
    | off => exact absurd hm hoff
    | queued => have := i.q2 c x hx hm; rw [noqueue] at this; simp at this
    | handling => have := i.b2 c x hx (.inl hm); rw [nobusy] at this; cases this
    | release => have := i.b2 c x hx (.inr hm); rw [nobusy] at this; cases this
    | done => rfl
  refine ⟨g.hnd.2 (.inr hm), ?_⟩
  have hw : x.wt = .closed := by
    have := hq (.waiter c false) trivial
    cases hw : x.wt with
    | waiting => simp [step, hx, hw, hm] at this
    | close => simp [step, hx, hw] at this
    | closed => rfl
  cases hc : x.c with
  | recv => exact absurd (g.recv hc).1 hoff
  | wait => have := hq (.ret c) trivial; simp [step, hx, hc, hw] at this
  | returned r => exact ⟨r, (g.ret r).2 hc⟩

/-! ## Callers see nothing of the chains -/

/-- The same but for wrappers and for which error was returned. -/
def SimC : CPc E → CPc E → Prop
  | .recv, .recv => True
  | .wait, .wait => True
  | .returned r, .returned r' => r.isNone = r'.isNone
  | _, _ => False

def SimX : Option (Call E D) → Option (Call E D) → Prop
  | none, none => True
  | some x, some y => x.actor = y.actor ∧ x.event = y.event ∧ x.m = y.m ∧ x.wt = y.wt ∧ SimC x.c y.c
  | _, _ => False

structure Sim (s t : State E D) : Prop where
  n : s.n = t.n
  queue : s.queue = t.queue
  busy : s.busy = t.busy
  call : ∀ c, SimX (s.call c) (t.call c)

theorem Sim.get {s t : State E D} (h : Sim s t) {c : Nat} {x : Call E D} (hx : s.call c = some x) :
    ∃ y, t.call c = some y ∧ x.actor = y.actor ∧ x.event = y.event ∧ x.m = y.m ∧ x.wt = y.wt ∧ SimC x.c y.c := by
  have := h.call c
  rw [hx] at this
  cases hy : t.call c with
  | none => rw [hy] at this; exact this.elim
  | some y => rw [hy] at this; exact ⟨y, rfl, this⟩

theorem Sim.set {s t s' t' : State E D} (h : Sim s t) {c : Nat} {x y : Call E D} (h1 : s'.call = upd s.call c (some x))
    (h2 : t'.call = upd t.call c (some y)) (h3 : SimX (some x) (some y)) (h4 : s'.n = t'.n) (h5 : s'.queue = t'.queue)
    (h6 : s'.busy = t'.busy) : Sim s' t' := by
  refine ⟨h4, h5, h6, fun c' => ?_⟩
  rw [h1, h2]
  by_cases e : c' = c
  · subst e; rw [upd_same, upd_same]; exact h3
  · rw [upd_of_ne _ _ e, upd_of_ne _ _ e]; exact h.call c'

theorem simC_recv {y : CPc E} (h : SimC .recv y) : y = .recv := by cases y <;> first | rfl | exact h.elim
theorem simC_wait {y : CPc E} (h : SimC .wait y) : y = .wait := by cases y <;> first | rfl | exact h.elim

theorem sim_step {cfg cfg' : Cfg E D} {s t s' : State E D} {a : Act E D} {evs : List (Ev E D)} (h : Sim s t)
    (hs : step cfg s a = some (s', evs)) :
    ∃ t' evs', step cfg' t a = some (t', evs') ∧ evs'.map see = evs.map see ∧ Sim s' t' := by
  cases a with
  | begin a ev w =>
    simp only [step] at hs; cases hs
    refine ⟨_, _, rfl, by simp [see, h.n], ?_⟩
    exact h.set (c := s.n) rfl (by rw [h.n]; rfl) ⟨rfl, rfl, rfl, rfl, trivial⟩ (by simp [h.n]) h.queue h.busy
  | recv c refuse =>
    simp only [step] at hs
    split at hs
    · rename_i x hx
      obtain ⟨y, hy, h1, h2, h3, h4, h5⟩ := h.get hx
      split at hs
      · rename_i hc
        rw [hc] at h5
        have hc' := simC_recv h5
        split at hs <;> cases hs
        · refine ⟨_, _, (by simp only [step, hy, hc']; rfl), ?_, ?_⟩
          · rfl
          exact h.set rfl rfl ⟨h1, h2, h3, rfl, rfl⟩ h.n h.queue h.busy
        · refine ⟨_, _, (by simp only [step, hy, hc']; rfl), ?_, ?_⟩
          · rfl
          exact h.set rfl rfl ⟨h1, h2, rfl, h4, trivial⟩ h.n (by simp [h.queue, h1]) h.busy
      · cases hs
    · cases hs
  | take a =>
    simp only [step] at hs
    split at hs
    · rename_i c q hb hq
      split at hs
      · rename_i x hx
        obtain ⟨y, hy, h1, h2, h3, h4, h5⟩ := h.get hx
        cases hs
        refine ⟨_, _, (by simp only [step, hy, ← h.busy, ← h.queue, hb, hq]; rfl), ?_, ?_⟩
        · rfl
        exact h.set rfl rfl ⟨h1, h2, rfl, h4, h5⟩ h.n (by simp [h.queue]) (by simp [h.busy])
      · cases hs
    · cases hs
  | run a =>
    simp only [step] at hs
    split at hs
    · rename_i c hb
      split at hs
      · rename_i x hx
        obtain ⟨y, hy, h1, h2, h3, h4, h5⟩ := h.get hx
        split at hs <;> cases hs
        rename_i hm
        refine ⟨_, _, (by simp only [step, hy, ← h.busy, hb, ← h3, hm, if_true]; rfl), ?_, ?_⟩
        · rfl
        exact h.set rfl rfl ⟨h1, h2, rfl, h4, h5⟩ h.n h.queue h.busy
      · cases hs
    · cases hs
  | release a =>
    simp only [step] at hs
    split at hs
    · rename_i c hb
      split at hs
      · rename_i x hx
        obtain ⟨y, hy, h1, h2, h3, h4, h5⟩ := h.get hx
        split at hs <;> cases hs
        rename_i hm
        refine ⟨_, _, (by simp only [step, hy, ← h.busy, hb, ← h3, hm, if_true]; rfl), ?_, ?_⟩
        · rfl
        exact h.set rfl rfl ⟨h1, h2, rfl, h4, h5⟩ h.n h.queue (by simp [h.busy])
      · cases hs
    · cases hs
  | waiter c timeout =>
    simp only [step] at hs
    split at hs
    · rename_i x hx
      obtain ⟨y, hy, h1, h2, h3, h4, h5⟩ := h.get hx
      split at hs
      · rename_i hw
        rw [hw] at h4
        split at hs
        · cases hs
        · rename_i hm
          rw [h3] at hm
          split at hs
          · rename_i ht
            cases hs
            refine ⟨_, _, (by simp only [step, hy, ← h4, hm, ht, if_true, if_false]; rfl), ?_, ?_⟩
            · rfl
            exact h.set rfl rfl ⟨h1, h2, h3, rfl, h5⟩ h.n h.queue h.busy
          · rename_i ht
            split at hs <;> cases hs
            rename_i hd
            rw [h3] at hd
            refine ⟨_, _, (by simp only [step, hy, ← h4, ht, hd, if_true]; rfl), ?_, ?_⟩
            · rfl
            exact h.set rfl rfl ⟨h1, h2, h3.trans hd, rfl, h5⟩ h.n h.queue h.busy
      · rename_i hw
        rw [hw] at h4
        cases hs
        refine ⟨_, _, (by simp only [step, hy, ← h4]; rfl), ?_, ?_⟩
        · rfl
        exact h.set rfl rfl ⟨h1, h2, h3, rfl, h5⟩ h.n h.queue h.busy
      · cases hs
    · cases hs
  | ret c =>
    simp only [step] at hs
    split at hs
    · rename_i x hx
      obtain ⟨y, hy, h1, h2, h3, h4, h5⟩ := h.get hx
      split at hs <;> cases hs
      rename_i hc hw
      rw [hc] at h5; rw [hw] at h4
      refine ⟨_, _, (by simp only [step, hy, ← h4, simC_wait h5]; rfl), ?_, ?_⟩
      · rfl
      exact h.set rfl rfl ⟨h1, h2, h3, hw, rfl⟩ h.n h.queue h.busy
    · cases hs
  | ctxEnd c =>
    simp only [step] at hs
    split at hs
    · rename_i x hx
      obtain ⟨y, hy, h1, h2, h3, h4, h5⟩ := h.get hx
      split at hs <;> cases hs
      rename_i hc
      rw [hc] at h5
      refine ⟨_, _, (by simp only [step, hy, simC_wait h5]; rfl), ?_, ?_⟩
      · rfl
      exact h.set rfl rfl ⟨h1, h2, h3, h4, rfl⟩ h.n h.queue h.busy
    · cases hs

theorem sim_run {cfg cfg' : Cfg E D} {h : List (Ev E D)} {s : State E D} (hr : (sys cfg).Run h s) :
    ∃ h' t, (sys cfg').Run h' t ∧ h'.map see = h.map see ∧ Sim s t := by
  induction hr with
  | init => exact ⟨[], init, .init, rfl, rfl, rfl, rfl, fun _ => trivial⟩
  | step hr hs ih =>
    obtain ⟨h', t, hr', hh, hsim⟩ := ih
    obtain ⟨t', evs', hs', he, hsim'⟩ := sim_step (cfg' := cfg') hsim hs
    exact ⟨_, t', .step hr' hs', by rw [List.map_append, List.map_append, hh, he], hsim'⟩

/-! ## Runs of one call -/

theorem one_call (cfg : Cfg E D) (a : Nat) (ev : String) (w : Wrap E D) :
    ∃ s, (sys cfg).Run [Ev.begin 0 a ev w, .accepted 0, .handled 0 (handle cfg a ev w).2 (handle cfg a ev w).1, .ret 0 none] s := by
  have key : ∃ s, (sys cfg).exec (sys cfg).init [.begin a ev w, .recv 0 none, .take a, .run a, .release a, .waiter 0 false,
      .waiter 0 false, .ret 0] =
      some (s, [Ev.begin 0 a ev w, .accepted 0, .handled 0 (handle cfg a ev w).2 (handle cfg a ev w).1, .ret 0 none]) := by
    simp [Lts.exec, sys, init, step, setCall]
  obtain ⟨s, hs⟩ := key
  exact ⟨s, Lts.run_of_exec hs⟩

theorem one_late (cfg : Cfg E D) (a : Nat) (ev : String) (w : Wrap E D) :
    ∃ s, (sys cfg).Run [Ev.begin 0 a ev w, .accepted 0, .timeout 0, .ret 0 none] s := by
  have key : ∃ s, (sys cfg).exec (sys cfg).init [.begin a ev w, .recv 0 none, .waiter 0 true, .waiter 0 false, .ret 0] =
      some (s, [Ev.begin 0 a ev w, .accepted 0, .timeout 0, .ret 0 none]) := by
    simp [Lts.exec, sys, init, step, setCall]
  obtain ⟨s, hs⟩ := key
  exact ⟨s, Lts.run_of_exec hs⟩

theorem handles_handle {cfg : Cfg E D} {a : Nat} {ev : String} {w w' : Wrap E D} {o : Out E} (h : Handles cfg a ev w w' o) :
    handle cfg a ev w = (w', o) := by
  unfold handle
  rcases h with ⟨h1, rfl, rfl⟩ | ⟨ch, h1, rfl, h2⟩
  · rw [h1]
  · rw [h1]
    dsimp only
    rcases he : Chain.execute ch w with ⟨w1, tr, o1⟩
    rw [he] at h2
    rcases h2 with ⟨rfl, h2⟩ | ⟨e, rfl, h2⟩ | ⟨rfl, h2⟩ <;> (dsimp only at h2; subst h2; rfl)

end Braid.Fail
