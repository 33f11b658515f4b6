import Verif.Future.InvD

/-
Invariant of the future model: the callback goroutines against the history.
-/
namespace Braid.Future
variable {V : Type}

def Pc.isReady : Pc V → Bool
  | .ready => true
  | _ => false

def Pc.isRunning : Pc V → Bool
  | .running => true
  | _ => false

@[simp] theorem starts_nil : starts ([] : List (Ev V)) = [] := rfl

theorem starts_append (h k : List (Ev V)) : starts (h ++ k) = starts h ++ starts k :=
  List.filterMap_append

theorem mem_starts {h : List (Ev V)} {r : Nat} : r ∈ starts h ↔ ∃ v, Ev.start r v ∈ h := by
  simp only [starts, List.mem_filterMap]
  constructor
  · rintro ⟨e, he, hx⟩
    cases e <;> simp at hx
    subst hx; exact ⟨_, he⟩
  · rintro ⟨v, hv⟩; exact ⟨_, hv, rfl⟩

structure InvT (h : List (Ev V)) (s : St V) : Prop where
  d1 : ∀ (k : Nat) (tk : Task V), s.tasks[k]? = some tk → (s.pc (.inr k)).isReady = false →
    Ev.start tk.reg tk.arg ∈ h
  d2 : ∀ (k : Nat) (tk : Task V), s.tasks[k]? = some tk → (s.pc (.inr k)).isReady = true →
    tk.reg ∉ starts h
  d3 : ∀ r v, Ev.start r v ∈ h → ∃ tk ∈ s.tasks, tk.reg = r ∧ tk.arg = v
  d4 : (starts h).Nodup
  d5 : ∀ (k : Nat) (tk : Task V), s.tasks[k]? = some tk → (s.pc (.inr k)).isReady = false →
    (s.pc (.inr k)).isRunning = false → Ev.finish tk.reg tk.arg ∈ h
  d6 : ∀ (k : Nat) (tk : Task V) (c : Nat), s.tasks[k]? = some tk → tk.child = some c →
    (s.pc (.inr k)).task = false → Ev.complete (.inr k) c tk.arg ∈ h
  d7 : ∀ k c v, Ev.complete (.inr k) c v ∈ h → ∃ tk : Task V, s.tasks[k]? = some tk ∧
    tk.child = some c ∧ tk.arg = v ∧ Before h (Ev.finish tk.reg v) (Ev.complete (.inr k) c v)
  d8 : ∀ r v, Ev.start r v ∈ h → ∀ f, Ev.then_ r f ∈ h →
    ∃ t, Before h (Ev.complete t f v) (Ev.start r v)
  joinable : ∀ (k : Nat) (tk : Task V), s.tasks[k]? = some tk → s.pc (.inr k) = .joining →
    tk.child ≠ none

theorem invT_init : InvT [] (init V) := by
  constructor <;> simp [init]

/-- Steps without events that neither start nor move a callback goroutine. -/
theorem invT_pc {h : List (Ev V)} {s : St V} (T : InvT h s) {t : Tid} {p : Pc V} {f : Nat}
    (hi : (s.pc t).inside = some f) (hp : p.task = false) {s' : St V}
    (htk : s'.tasks = s.tasks) (hpc : s'.pc = upd s.pc t p) : InvT h s' := by
  obtain ⟨d1, d2, d3, d4, d5, d6, d7, d8, dj⟩ := T
  have h1 : (s.pc t).isReady = false := by cases h : s.pc t <;> simp [h, Pc.inside] at hi <;> rfl
  have h2 : (s.pc t).isRunning = false := by cases h : s.pc t <;> simp [h, Pc.inside] at hi <;> rfl
  have h3 : (s.pc t).task = false := by cases h : s.pc t <;> simp [h, Pc.inside] at hi <;> rfl
  have h4 : p.isReady = false := by cases p <;> simp [Pc.task] at hp <;> rfl
  have h5 : p.isRunning = false := by cases p <;> simp [Pc.task] at hp <;> rfl
  have h6 : p ≠ .joining := by rintro rfl; cases hp
  constructor <;> (try simp only [htk, hpc]) <;> grind [upd_apply]

/-- The same with a new callback goroutine. -/
theorem invT_spawn {h : List (Ev V)} {s : St V} (A : InvA s) (T : InvT h s) {t : Tid} {p : Pc V}
    {f : Nat} (hi : (s.pc t).inside = some f) (hp : p.task = false) {k : Task V}
    (hn : k.reg ∉ starts h) : InvT h (setPc (spawn s k) t p) := by
  have hidle := A.tl s.tasks.length (Nat.le_refl _)
  have hne : t ≠ .inr s.tasks.length := by
    rintro rfl; rw [hidle] at hi; cases hi
  obtain ⟨d1, d2, d3, d4, d5, d6, d7, d8, dj⟩ := T
  have h1 : (s.pc t).isReady = false := by cases h : s.pc t <;> simp [h, Pc.inside] at hi <;> rfl
  have h2 : (s.pc t).isRunning = false := by cases h : s.pc t <;> simp [h, Pc.inside] at hi <;> rfl
  have h3 : (s.pc t).task = false := by cases h : s.pc t <;> simp [h, Pc.inside] at hi <;> rfl
  have h4 : p.isReady = false := by cases p <;> simp [Pc.task] at hp <;> rfl
  have h5 : p.isRunning = false := by cases p <;> simp [Pc.task] at hp <;> rfl
  have h6 : (Pc.ready : Pc V).isReady = true := rfl
  have h7 : (Pc.ready : Pc V).isRunning = false := rfl
  have h8 : (Pc.ready : Pc V).task = true := rfl
  constructor <;> (try simp only [setPc, spawn])
  · grind [upd_apply]
  · grind [upd_apply]
  · grind
  · exact d4
  · grind [upd_apply]
  · grind [upd_apply]
  · grind
  · exact d8
  · have : p ≠ .joining := by rintro rfl; cases hp
    grind [upd_apply]

/-- Events other than `start`, `finish` and `complete`, and user moves. -/
theorem invT_ev {h : List (Ev V)} {s : St V} (T : InvT h s) {e : Ev V}
    (h1 : ∀ r v, e ≠ .start r v) (h2 : ∀ k c v, e ≠ .complete (.inr k) c v)
    (h3 : ∀ r f, e = .then_ r f → ∀ v, Ev.start r v ∉ h) : InvT (h ++ [e]) s := by
  have hst : starts (h ++ [e]) = starts h := by
    rw [starts_append]; cases e <;> simp [starts] at h1 ⊢
  obtain ⟨d1, d2, d3, d4, d5, d6, d7, d8, dj⟩ := T
  constructor
  · intro k tk a b; exact List.mem_append_left _ (d1 k tk a b)
  · rw [hst]; exact d2
  · intro r v hm
    rcases List.mem_append.1 hm with hm | hm
    · exact d3 r v hm
    · simp only [List.mem_singleton] at hm; exact absurd hm.symm (h1 r v)
  · rw [hst]; exact d4
  · intro k tk a b c; exact List.mem_append_left _ (d5 k tk a b c)
  · intro k tk c a b d; exact List.mem_append_left _ (d6 k tk c a b d)
  · intro k c v hm
    rcases List.mem_append.1 hm with hm | hm
    · obtain ⟨tk, a, b, d, e⟩ := d7 k c v hm
      exact ⟨tk, a, b, d, before_append_singleton.2 (Or.inl e)⟩
    · simp only [List.mem_singleton] at hm; exact absurd hm.symm (h2 k c v)
  · intro r v hm f hf
    rcases List.mem_append.1 hm with hm | hm
    · rcases List.mem_append.1 hf with hf | hf
      · obtain ⟨t, ht⟩ := d8 r v hm f hf
        exact ⟨t, before_append_singleton.2 (Or.inl ht)⟩
      · simp only [List.mem_singleton] at hf; exact absurd hm (h3 r f hf.symm v)
    · simp only [List.mem_singleton] at hm; exact absurd hm.symm (h1 r v)
  · exact dj

theorem invT_user {h : List (Ev V)} {s s' : St V} (T : InvT h s) {u : Nat} {p : Pc V}
    (htk : s'.tasks = s.tasks) (hpc : s'.pc = upd s.pc (.inl u) p) : InvT h s' := by
  have hne : ∀ k, s'.pc (.inr k) = s.pc (.inr k) := by
    intro k; rw [hpc, upd_of_ne]; simp
  obtain ⟨d1, d2, d3, d4, d5, d6, d7, d8, dj⟩ := T
  constructor <;> (try simp only [htk, hne]) <;> assumption

set_option maxHeartbeats 1000000 in
theorem invT_step {h : List (Ev V)} {s s' : St V} {evs : List (Ev V)} (A : InvA s) (B : InvB h (view s))
    (C : InvC h (view s) s.tasks s.nreg s.nfut) (T : InvT h s) (ht : Tr s s' evs) :
    InvT (h ++ evs) s' := by
  have hal := alloc_eq A
  have fresh : ∀ f v, Ev.start s.nreg v ∈ h → Ev.then_ s.nreg f ∉ h := by
    intro f v _ hm; have := C.c1 _ _ hm; omega
  cases ht
  case new =>
    rw [hal, List.append_nil]
    obtain ⟨d1, d2, d3, d4, d5, d6, d7, d8, dj⟩ := T
    constructor <;> assumption
  case thenLock u f hf hp hl =>
    refine invT_user (s := s) (u := u) (invT_ev T (by simp) (by simp) ?_) rfl rfl
    intro r g e v hm
    cases e
    obtain ⟨tk, h1, h2, h3⟩ := T.d3 _ _ hm
    obtain ⟨g, hg⟩ := C.c7e tk h1
    have := C.c1 _ _ hg; omega
  case compLock u f v hf hp hl =>
    exact invT_user (s := s) (u := u) (invT_ev T (by simp) (by simp) (by simp)) rfl rfl
  case obs f => exact invT_ev T (by simp) (by simp) (by simp)
  case thenDone t f r hp hd =>
    rw [List.append_nil]; exact invT_pc T (by rw [hp]; rfl) rfl rfl rfl
  case thenPend t f r hp hd =>
    rw [List.append_nil]; exact invT_pc T (by rw [hp]; rfl) rfl rfl rfl
  case thenLate t f r v hp hv =>
    have hi : (s.pc t).inside = some f := by rw [hp]; rfl
    rw [List.append_nil]
    refine invT_spawn A T hi rfl ?_
    intro hm
    obtain ⟨v', hm⟩ := mem_starts.1 hm
    obtain ⟨tk, h1, h2, h3⟩ := T.d3 _ _ hm
    have := (C.c4 f r (by rw [view_pc A hi, hp]; rfl)).2.1
    exact this (List.mem_map.2 ⟨tk, h1, h2⟩)
  case thenNew t f r hp =>
    rw [hal]
    exact invT_pc (s := s) (invT_ev T (by simp) (by simp) (by simp)) (by rw [hp]; rfl) rfl rfl rfl
  case thenAppend t f r hp =>
    rw [hal]
    exact invT_pc (s := s) (invT_ev T (by simp) (by simp) (by simp)) (by rw [hp]; rfl) rfl rfl rfl
  case unlock t f hp =>
    rw [List.append_nil]; exact invT_pc T (by rw [hp]; rfl) rfl rfl rfl
  case compDone t f v hp hd =>
    rw [List.append_nil]; exact invT_pc T (by rw [hp]; rfl) rfl rfl rfl
  case compFirst t f v hp hd =>
    rw [List.append_nil]; exact invT_pc T (by rw [hp]; rfl) rfl rfl rfl
  case compSet t f v hp =>
    rw [List.append_nil]; exact invT_pc T (by rw [hp]; rfl) rfl rfl rfl
  case compClose t f v hp =>
    rw [List.append_nil]; exact invT_pc T (by rw [hp]; rfl) rfl rfl rfl
  case compClear t f hp =>
    rw [List.append_nil]; exact invT_pc T (by rw [hp]; rfl) rfl rfl rfl
  case compSpawn t f r c rest v hp hv =>
    have hi : (s.pc t).inside = some f := by rw [hp]; rfl
    rw [List.append_nil]
    refine invT_spawn A T hi rfl ?_
    intro hm
    obtain ⟨v', hm⟩ := mem_starts.1 hm
    obtain ⟨tk, h1, h2, h3⟩ := T.d3 _ _ hm
    have := (C.c3 f r (by simp [View.pend, view_pc A hi, hp])).2
    exact this (List.mem_map.2 ⟨tk, h1, h2⟩)
  case start k tk hp hk =>
    have hst : starts (h ++ [Ev.start tk.reg tk.arg]) = starts h ++ [tk.reg] := starts_append _ _
    have hnew := T.d2 k tk hk (by rw [hp]; rfl)
    have huniq : ∀ (k' : Nat) (tk' : Task V), s.tasks[k']? = some tk' → tk'.reg = tk.reg → k' = k := by
      intro k' tk' h1 h2
      exact nodup_idx C.c6 (a := tk.reg) (by simp [h1, h2]) (by simp [hk])
    have hb : ∀ f, Ev.then_ tk.reg f ∈ h → ∃ t, Ev.complete t f tk.arg ∈ h := by
      intro f hf
      have h1 := (C.c7 tk (List.mem_of_getElem? hk) f hf).1
      exact firstVal_mem (B.v1 f tk.arg h1)
    obtain ⟨d1, d2, d3, d4, d5, d6, d7, d8, dj⟩ := T
    have h1 : (Pc.running : Pc V).isReady = false := rfl
    have h2 : (Pc.running : Pc V).isRunning = true := rfl
    have h3 : (Pc.running : Pc V).task = true := rfl
    have h4 : (Pc.ready : Pc V).isReady = true := rfl
    constructor <;> (try simp only [setPc])
    · grind [upd_apply]
    · rw [hst]; grind [upd_apply]
    · have := List.mem_of_getElem? hk
      grind
    · rw [hst]; grind
    · grind [upd_apply]
    · grind [upd_apply]
    · intro k' c v hm
      simp only [List.mem_append, List.mem_singleton, reduceCtorEq, or_false] at hm
      obtain ⟨tk', a, b, d, e⟩ := d7 k' c v hm
      exact ⟨tk', a, b, d, before_append_singleton.2 (Or.inl e)⟩
    · intro r v hm f hf
      simp only [List.mem_append, List.mem_singleton, reduceCtorEq, or_false] at hm hf
      rcases hm with hm | hm
      · obtain ⟨t, ht⟩ := d8 r v hm f hf
        exact ⟨t, before_append_singleton.2 (Or.inl ht)⟩
      · cases hm
        obtain ⟨t, ht⟩ := hb f hf
        exact ⟨t, before_append_singleton.2 (Or.inr ⟨ht, rfl⟩)⟩
    · grind [upd_apply]
  case finishLast k tk hp hk hc =>
    have T' := invT_ev T (e := .finish tk.reg tk.arg) (by simp) (by simp) (by simp)
    have hm : Ev.finish tk.reg tk.arg ∈ h ++ [Ev.finish tk.reg tk.arg] := by simp
    obtain ⟨d1, d2, d3, d4, d5, d6, d7, d8, dj⟩ := T'
    have h1 : (Pc.idle : Pc V).isReady = false := rfl
    have h2 : (Pc.running : Pc V).isReady = false := rfl
    constructor <;> (try simp only [setPc])
    · intro k' tk' a b; exact d1 k' tk' a (by grind [upd_apply])
    · intro k' tk' a b; exact d2 k' tk' a (by grind [upd_apply])
    · exact d3
    · exact d4
    · intro k' tk' a b c
      by_cases e : k' = k
      · subst e; rw [hk] at a; cases a; exact hm
      · rw [upd_of_ne _ _ (by simpa using e)] at b c; exact d5 k' tk' a b c
    · intro k' tk' c a b d
      by_cases e : k' = k
      · subst e; rw [hk] at a; cases a; rw [hc] at b; cases b
      · rw [upd_of_ne _ _ (by simpa using e)] at d; exact d6 k' tk' c a b d
    · exact d7
    · exact d8
    · grind [upd_apply]
  case finishJoin k tk c hp hk hc =>
    have T' := invT_ev T (e := .finish tk.reg tk.arg) (by simp) (by simp) (by simp)
    have hm : Ev.finish tk.reg tk.arg ∈ h ++ [Ev.finish tk.reg tk.arg] := by simp
    obtain ⟨d1, d2, d3, d4, d5, d6, d7, d8, dj⟩ := T'
    have h1 : (Pc.joining : Pc V).isReady = false := rfl
    have h2 : (Pc.running : Pc V).isReady = false := rfl
    constructor <;> (try simp only [setPc])
    · intro k' tk' a b; exact d1 k' tk' a (by grind [upd_apply])
    · intro k' tk' a b; exact d2 k' tk' a (by grind [upd_apply])
    · exact d3
    · exact d4
    · intro k' tk' a b c
      by_cases e : k' = k
      · subst e; rw [hk] at a; cases a; exact hm
      · rw [upd_of_ne _ _ (by simpa using e)] at b c; exact d5 k' tk' a b c
    · intro k' tk' c' a b d
      by_cases e : k' = k
      · subst e; rw [upd_same] at d; cases d
      · rw [upd_of_ne _ _ (by simpa using e)] at d; exact d6 k' tk' c' a b d
    · exact d7
    · exact d8
    · grind [upd_apply]
  case join k tk c hp hk hc hl =>
    have hst : starts (h ++ [Ev.complete (.inr k) c tk.arg]) = starts h := by
      rw [starts_append]; simp [starts]
    have hfin := T.d5 k tk hk (by rw [hp]; rfl) (by rw [hp]; rfl)
    obtain ⟨d1, d2, d3, d4, d5, d6, d7, d8, dj⟩ := T
    have h1 : (Pc.compCheck c tk.arg).isReady = false := rfl
    have h2 : (Pc.joining : Pc V).isReady = false := rfl
    have h3 : (Pc.joining : Pc V).isRunning = false := rfl
    constructor <;> (try simp only [setPc, setFut])
    · intro k' tk' a b
      exact List.mem_append_left _ (d1 k' tk' a (by grind [upd_apply]))
    · rw [hst]; intro k' tk' a b; exact d2 k' tk' a (by grind [upd_apply])
    · intro r v hm
      simp only [List.mem_append, List.mem_singleton, reduceCtorEq, or_false] at hm
      exact d3 r v hm
    · rw [hst]; exact d4
    · intro k' tk' a b d
      exact List.mem_append_left _ (d5 k' tk' a (by grind [upd_apply]) (by grind [upd_apply]))
    · intro k' tk' c' a b d
      by_cases e : k' = k
      · subst e; rw [hk] at a; cases a; rw [hc] at b; cases b; simp
      · rw [upd_of_ne _ _ (by simpa using e)] at d
        exact List.mem_append_left _ (d6 k' tk' c' a b d)
    · intro k' c' v hm
      simp only [List.mem_append, List.mem_singleton] at hm
      rcases hm with hm | hm
      · obtain ⟨tk', a, b, d, e⟩ := d7 k' c' v hm
        exact ⟨tk', a, b, d, before_append_singleton.2 (Or.inl e)⟩
      · cases hm
        exact ⟨tk, hk, hc, rfl, before_append_singleton.2 (Or.inr ⟨hfin, rfl⟩)⟩
    · intro r v hm f hf
      simp only [List.mem_append, List.mem_singleton, reduceCtorEq, or_false] at hm hf
      obtain ⟨t, ht⟩ := d8 r v hm f hf
      exact ⟨t, before_append_singleton.2 (Or.inl ht)⟩
    · grind [upd_apply]

/-- The whole invariant. -/
structure Inv (h : List (Ev V)) (s : St V) : Prop where
  A : InvA s
  B : InvB h (view s)
  C : InvC h (view s) s.tasks s.nreg s.nfut
  K : InvK h (view s) s.tasks s.nreg s.nfut
  E : InvE h (view s) s.tasks
  T : InvT h s

theorem view_idle {s : St V} {f : Nat} (hl : (s.fut f).lock = none) : (view s f).pc = .idle := by
  simp [view, holder, hl]

theorem done_iff {h : List (Ev V)} {s : St V} (B : InvB h (view s)) {f : Nat}
    (hl : (s.fut f).lock = none) :
    (∃ t v, Ev.complete t f v ∈ h) ↔ (s.fut f).done = true := by
  constructor
  · rintro ⟨t, v, hm⟩
    cases hv : firstVal h f with
    | none => exact absurd hm (firstVal_none hv t v)
    | some w =>
      have hp := view_idle (s := s) hl
      rcases B.v7 f w hv with h1 | h1 | h1 | h1
      · exact h1
      all_goals rw [hp] at h1; cases h1
  · intro hd
    obtain ⟨v, hv⟩ := B.v2 f hd
    obtain ⟨t, ht⟩ := firstVal_mem (B.v1 f v hv)
    exact ⟨t, v, ht⟩

theorem run_inv {h : List (Ev V)} {s : St V} (hr : (sys V).Run h s) : Inv h s := by
  induction hr with
  | init => exact ⟨invA_init, invB_init, invC_init, invK_init, invE_init, invT_init⟩
  | @step h s a s' evs _ hs ih =>
    have ht := step_tr hs
    have htv := tr_view ih.A ht
    exact ⟨invA_step ih.A ht, invB_step ih.B htv,
      invC_step ih.B.v8 ih.B.v9 (fun f v hv => (ih.B.v4 f v hv).1) ih.C htv, invK_step ih.K htv,
      invE_step (fun f hl => done_iff ih.B hl) ih.C ih.E htv,
      invT_step ih.A ih.B ih.C ih.T ht⟩

/-- In a quiet state no mutex is held. -/
theorem quiet_lock {h : List (Ev V)} {s : St V} (I : Inv h s) (hq : Quiet s) (f : Nat) :
    (s.fut f).lock = none := by
  cases hl : (s.fut f).lock with
  | none => rfl
  | some t =>
    have := (I.A.lk t f).2 hl
    rw [hq t] at this; cases this

/-- In a quiet state every registration on a completed future has its goroutine. -/
theorem quiet_task {h : List (Ev V)} {s : St V} (I : Inv h s) (hq : Quiet s) {r f : Nat} {v : V}
    (hr : Ev.then_ r f ∈ h) (hv : firstVal h f = some v) :
    ∃ (k : Nat) (tk : Task V), s.tasks[k]? = some tk ∧ tk.reg = r ∧ tk.arg = v := by
  have hl := quiet_lock I hq f
  have hp := view_idle (s := s) hl
  have hd : (s.fut f).done = true := by
    obtain ⟨t, ht⟩ := firstVal_mem hv
    exact (done_iff I.B hl).1 ⟨t, v, ht⟩
  rcases I.C.c2 r f hr with h1 | h1 | h1
  · obtain ⟨tk, h2, rfl⟩ := List.mem_map.1 h1
    obtain ⟨k, hk⟩ := List.getElem?_of_mem h2
    refine ⟨k, tk, hk, rfl, ?_⟩
    have := (I.C.c7 tk h2 f hr).1
    have := I.B.v1 f tk.arg this
    rw [hv] at this; exact (Option.some.inj this).symm
  · have := I.C.c8 f hd (by rw [hp]; rfl)
    simp [View.pend, hp, this] at h1
  · rw [hp] at h1; cases h1

end Braid.Future
