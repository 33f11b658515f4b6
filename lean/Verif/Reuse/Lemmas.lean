import Verif.Reuse.Spec

/-
Invariants of runs in which a call begins only when the earlier ones are over.
-/
namespace Braid.Reuse
open Spec

/-- Call `c` is over: its waiters and its message are gone. -/
def Over (s : State) (c : Nat) : Prop :=
  (s.outer c = .off ∨ s.outer c = .ended) ∧ (s.inner c = .off ∨ s.inner c = .closed) ∧
  (s.msg c = .off ∨ s.msg c = .done)

/-- Nothing of call `c` exists yet. -/
def New (s : State) (c : Nat) : Prop :=
  s.outer c = .off ∧ s.inner c = .off ∧ s.msg c = .off ∧ s.isClosed c = false ∧ s.ready c = false

/-- The waiters of the last call `c`. -/
structure Wt (h : List Ev) (s : State) (c : Nat) : Prop where
  chan : s.chan = some c
  off : s.outer c ≠ .off
  early : s.ready c = false → s.outer c = .blocked
  blocked : s.outer c = .blocked ↔ s.inner c = .off
  closed : s.isClosed c = true ↔ s.outer c = .ended
  clo : s.outer c = .close ∨ s.outer c = .ended → .timeout c ∉ h → s.inner c = .closed
  gone : s.inner c = .closed ∨ s.inner c = .woke → s.wg = 0
  parked : s.inner c = .parked → s.wg = 1

/-- The message is on its way. -/
def Sent (s : State) (c : Nat) : Prop :=
  ((s.msg c = .queued ∨ s.msg c = .handling ∨ s.msg c = .rel1) ∧ s.cnt = 1 ∧ s.wg = 1) ∨
  (s.msg c = .rel2 ∧ s.cnt = 0 ∧ s.wg = 1) ∨ (s.msg c = .done ∧ s.cnt = 0 ∧ s.wg = 0)

/-- The message is not sent yet. -/
def Unsent (s : State) (c : Nat) (cnt wg : Int) : Prop :=
  s.ready c = false ∧ s.msg c = .off ∧ s.cnt = cnt ∧ s.wg = wg

/-- Where the last call is. -/
def At (h : List Ev) (s : State) (c : Nat) : Prop :=
  match s.pc with
  | .idle => (∃ ok, .ret c ok ∈ h) ∧ s.ready c = true ∧ Wt h s c ∧
      ((s.msg c = .off ∧ s.cnt = 0 ∧ s.wg = 0 ∧ .refused c ∈ h) ∨
       (Sent s c ∧ (s.outer c = .ended ∨ .expired c ∈ h)))
  | .mk d => d = c ∧ New s c ∧ s.cnt = 0 ∧ s.wg = 0
  | .recv d r => d = c ∧ r = true ∧ Wt h s c ∧ Unsent s c 0 0
  | .add1 d r => d = c ∧ r = true ∧ Wt h s c ∧ Unsent s c 0 0
  | .add2 d r => d = c ∧ r = true ∧ Wt h s c ∧ Unsent s c 1 0
  | .push d r => d = c ∧ r = true ∧ Wt h s c ∧ Unsent s c 1 1
  | .ready d => d = c ∧ s.ready c = false ∧ Wt h s c ∧ Sent s c
  | .look d => d = c ∧ s.ready c = true ∧ Wt h s c ∧ Sent s c
  | .wait d e => d = c ∧ e = c ∧ s.ready c = true ∧ Wt h s c ∧ Sent s c

structure Inv (h : List Ev) (s : State) : Prop where
  alive : s.crashed = false
  calm : .crash ∉ h
  old : ∀ c, c + 1 < s.n → Over s c ∧ ∃ ok, .ret c ok ∈ h
  new : ∀ c, s.n ≤ c → New s c
  first : s.n = 0 → s.pc = .idle ∧ s.cnt = 0 ∧ s.wg = 0
  cur : ∀ c, s.n = c + 1 → At h s c
  hnd : ∀ c, s.msg c = .rel1 ∨ s.msg c = .rel2 ∨ s.msg c = .done → .handled c ∈ h
  beg : ∀ c, .begin c ∈ h → c < s.n
  rt : ∀ c, .begin c ∈ h → .root c ∈ h
  safe : Safe h

theorem safe_append {h evs : List Ev} (hs : Safe h) (hc : .crash ∉ evs)
    (hr : ∀ c, .ret c true ∈ evs → evs = [.ret c true] ∧ (.timeout c ∉ h → .handled c ∈ h)) : Safe (h ++ evs) := by
  obtain ⟨h1, h2⟩ := hs
  refine ⟨by simp [h1, hc], ?_⟩
  intro a b c he ht
  rcases List.append_eq_append_iff.mp he with ⟨x, hx, hy⟩ | ⟨x, hx, hy⟩
  · obtain ⟨e1, e2⟩ := hr c (by rw [hy]; simp)
    subst hx
    have : x = [] := by
      rw [e1] at hy
      cases x with
      | nil => rfl
      | cons u v => simp at hy
    subst this
    simp only [List.append_nil] at ht ⊢
    exact e2 ht
  · cases x with
    | nil =>
      simp only [List.append_nil, List.nil_append] at hx hy
      obtain ⟨e1, e2⟩ := hr c (by rw [← hy]; simp)
      subst hx
      exact e2 ht
    | cons u v =>
      simp only [List.cons_append, List.cons.injEq] at hy
      obtain ⟨rfl, rfl⟩ := hy
      exact h2 a v c hx ht

theorem inv_init : Inv [] init where
  alive := rfl
  calm := by simp
  old := by intro c hc; simp [init] at hc
  new := by intro c _; exact ⟨rfl, rfl, rfl, rfl, rfl⟩
  first := by intro _; exact ⟨rfl, rfl, rfl⟩
  cur := by intro c hc; simp [init] at hc
  hnd := by intro c hc; simp [init] at hc
  beg := by simp
  rt := by simp
  safe := ⟨by simp, by intro a b c h; simp at h⟩

/-- A call that is neither over nor new is the last one. -/
theorem Inv.isCur {h s c} (hi : Inv h s) (ho : ¬ Over s c) : s.n = c + 1 := by
  by_cases h1 : c + 1 < s.n
  · exact absurd (hi.old c h1).1 ho
  · by_cases h2 : s.n ≤ c
    · obtain ⟨a, b, d, -, -⟩ := hi.new c h2
      exact absurd ⟨.inl a, .inl b, .inl d⟩ ho
    · omega

theorem Wt.mono {h s c} (evs : List Ev) (hw : Wt h s c) : Wt (h ++ evs) s c :=
  { hw with clo := fun a b => hw.clo a (fun hb => b (List.mem_append_left _ hb)) }

/-- What a step of the last call must show. -/
theorem Inv.next {h s s' c evs} (hi : Inv h s) (hc : s.n = c + 1) (hn : s'.n = s.n)
    (ho : ∀ d, d ≠ c → s'.outer d = s.outer d) (hin : ∀ d, d ≠ c → s'.inner d = s.inner d)
    (hm : ∀ d, d ≠ c → s'.msg d = s.msg d) (hcl : ∀ d, d ≠ c → s'.isClosed d = s.isClosed d)
    (hre : ∀ d, d ≠ c → s'.ready d = s.ready d) (hal : s'.crashed = false) (hev : .crash ∉ evs)
    (hbe : ∀ d, .begin d ∉ evs)
    (hat : At (h ++ evs) s' c)
    (hh : s'.msg c = .rel1 ∨ s'.msg c = .rel2 ∨ s'.msg c = .done → .handled c ∈ h ++ evs)
    (hr : ∀ c, .ret c true ∈ evs → evs = [.ret c true] ∧ (.timeout c ∉ h → .handled c ∈ h)) :
    Inv (h ++ evs) s' where
  alive := hal
  calm := by simp [hi.calm, hev]
  old := by
    intro d hd
    have hdc : d ≠ c := by omega
    obtain ⟨h1, ok, h2⟩ := hi.old d (by omega)
    refine ⟨?_, ok, by simp [h2]⟩
    simpa [Over, ho d hdc, hin d hdc, hm d hdc] using h1
  new := by
    intro d hd
    have hdc : d ≠ c := by omega
    have := hi.new d (by omega)
    simpa [New, ho d hdc, hin d hdc, hm d hdc, hcl d hdc, hre d hdc] using this
  first := by intro h0; omega
  cur := by
    intro d hd
    have : d = c := by omega
    subst this; exact hat
  hnd := by
    intro d hd
    by_cases hdc : d = c
    · subst hdc; exact hh hd
    · rw [hm d hdc] at hd; exact List.mem_append_left _ (hi.hnd d hd)
  beg := by
    intro d hd
    rw [hn]
    rcases List.mem_append.mp hd with hd | hd
    · exact hi.beg d hd
    · exact absurd hd (hbe d)
  rt := by
    intro d hd
    rcases List.mem_append.mp hd with hd | hd
    · exact List.mem_append_left _ (hi.rt d hd)
    · exact absurd hd (hbe d)
  safe := safe_append hi.safe hev hr

/-- What must hold of the last call when the next one begins. -/
theorem inv_call {h s s' evs} (hi : Inv h s) (hs : step s .call = some (s', evs))
    (hov : ∀ c, s.n = c + 1 → Over s c) : Inv (h ++ evs) s' := by
  rw [step, if_neg (by simp [hi.alive])] at hs
  have hp : s.pc = .idle := by
    by_cases hp : s.pc = .idle
    · exact hp
    · simp [hp] at hs
  have hz : s.cnt = 0 ∧ s.wg = 0 ∧ ∀ c, s.n = c + 1 → ∃ ok, .ret c ok ∈ h := by
    cases hn : s.n with
    | zero => exact ⟨(hi.first hn).2.1, (hi.first hn).2.2, by intro c hc; omega⟩
    | succ c =>
      have ha := hi.cur c hn
      have ho := hov c hn
      simp only [At, hp] at ha
      obtain ⟨⟨ok, hr⟩, -, -, ⟨h1, h2, h3, -⟩ | ⟨h1, -⟩⟩ := ha
      · exact ⟨h2, h3, by intro d hd; have : d = c := by omega
                          subst this; exact ⟨ok, hr⟩⟩
      · refine ⟨?_, ?_, by intro d hd; have : d = c := by omega
                           subst this; exact ⟨ok, hr⟩⟩ <;>
        rcases h1 with ⟨h1, -⟩ | ⟨h1, -⟩ | ⟨-, h2, h3⟩
        · rcases h1 with h1 | h1 | h1 <;> rcases ho.2.2 with h4 | h4 <;> rw [h1] at h4 <;> cases h4
        · rcases ho.2.2 with h4 | h4 <;> rw [h1] at h4 <;> cases h4
        · exact h2
        · rcases h1 with h1 | h1 | h1 <;> rcases ho.2.2 with h4 | h4 <;> rw [h1] at h4 <;> cases h4
        · rcases ho.2.2 with h4 | h4 <;> rw [h1] at h4 <;> cases h4
        · exact h3
  obtain ⟨z1, z2, z3⟩ := hz
  rw [if_pos hp, if_pos z1] at hs
  simp only [Option.some.injEq, Prod.mk.injEq] at hs
  obtain ⟨rfl, rfl⟩ := hs
  exact {
    alive := hi.alive
    calm := by simp [hi.calm]
    old := by
      intro d hd
      dsimp only at hd
      by_cases hd' : d + 1 < s.n
      · obtain ⟨h1, ok, h2⟩ := hi.old d hd'
        exact ⟨h1, ok, by simp [h2]⟩
      · have hd2 : s.n = d + 1 := by omega
        obtain ⟨ok, hr⟩ := z3 d hd2
        exact ⟨hov d hd2, ok, by simp [hr]⟩
    new := by
      intro d hd
      dsimp only at hd
      exact hi.new d (by omega)
    first := by intro h0; dsimp only at h0; omega
    cur := by
      intro d hd
      dsimp only at hd
      have hd' : d = s.n := by omega
      subst hd'
      simp only [At]
      exact ⟨trivial, hi.new _ (Nat.le_refl _), z1, z2⟩
    hnd := by intro d hd; exact List.mem_append_left _ (hi.hnd d hd)
    beg := by
      intro d hd
      simp only [List.mem_append, List.mem_cons, Ev.begin.injEq, reduceCtorEq, List.not_mem_nil, or_false] at hd
      dsimp only
      rcases hd with hd | hd
      · have := hi.beg d hd; omega
      · omega
    rt := by
      intro d hd
      simp only [List.mem_append, List.mem_cons, Ev.begin.injEq, reduceCtorEq, List.not_mem_nil, or_false] at hd
      rcases hd with hd | hd
      · exact List.mem_append_left _ (hi.rt d hd)
      · subst hd; simp
    safe := safe_append hi.safe (by simp) (by simp) }

theorem At.wt {h s c} (ha : At h s c) (hp : s.outer c ≠ .off ∨ s.inner c ≠ .off ∨ s.msg c ≠ .off) : Wt h s c := by
  unfold At at ha
  cases hpc : s.pc <;> rw [hpc] at ha <;> dsimp only at ha
  case mk d =>
    obtain ⟨-, ⟨a, b, d, -, -⟩, -⟩ := ha
    rcases hp with hp | hp | hp
    · exact absurd a hp
    · exact absurd b hp
    · exact absurd d hp
  case idle => exact ha.2.2.1
  case recv => exact ha.2.2.1
  case add1 => exact ha.2.2.1
  case add2 => exact ha.2.2.1
  case push => exact ha.2.2.1
  case ready => exact ha.2.2.1
  case look => exact ha.2.2.1
  case wait => exact ha.2.2.2.1

/-- At most one message counts. -/
theorem At.wg1 {h s c} (ha : At h s c) (hz : s.wg ≠ 0) : s.wg = 1 := by
  unfold At at ha
  have hs : Sent s c → s.wg = 1 := by
    rintro (⟨-, -, h1⟩ | ⟨-, -, h1⟩ | ⟨-, -, h1⟩)
    · exact h1
    · exact h1
    · exact absurd h1 hz
  cases hpc : s.pc <;> rw [hpc] at ha <;> dsimp only at ha
  case mk d => exact absurd ha.2.2.2 hz
  case idle =>
    obtain ⟨-, -, -, ⟨-, -, d1, -⟩ | ⟨d1, -⟩⟩ := ha
    · exact absurd d1 hz
    · exact hs d1
  case recv => exact absurd ha.2.2.2.2.2.2 hz
  case add1 => exact absurd ha.2.2.2.2.2.2 hz
  case add2 => exact absurd ha.2.2.2.2.2.2 hz
  case push => exact ha.2.2.2.2.2.2
  case ready => exact hs ha.2.2.2
  case look => exact hs ha.2.2.2
  case wait => exact hs ha.2.2.2.2

/-- A step of the waiters. -/
theorem At.waiters {h s s' c evs} (ha : At h s c) (hp : s.outer c ≠ .off) (hw : Wt (h ++ evs) s' c) (h1 : s'.pc = s.pc)
    (h2 : s'.msg c = s.msg c) (h3 : s'.cnt = s.cnt) (h4 : s'.wg = s.wg) (h5 : s'.ready c = s.ready c)
    (h6 : s.outer c = .ended → s'.outer c = .ended) : At (h ++ evs) s' c := by
  unfold At at ha ⊢
  rw [h1]
  cases hpc : s.pc <;> rw [hpc] at ha <;> dsimp only at ha ⊢
  case mk d => exact absurd ha.2.1.1 hp
  case idle =>
    obtain ⟨⟨ok, a⟩, b, -, d⟩ := ha
    refine ⟨⟨ok, by simp [a]⟩, by rw [h5, b], hw, ?_⟩
    rcases d with ⟨d1, d2, d3, d4⟩ | ⟨d1, d2⟩
    · exact .inl ⟨by rw [h2, d1], by rw [h3, d2], by rw [h4, d3], by simp [d4]⟩
    · refine .inr ⟨by simpa [Sent, h2, h3, h4] using d1, ?_⟩
      rcases d2 with d2 | d2
      · exact .inl (h6 d2)
      · exact .inr (by simp [d2])
  case recv => exact ⟨ha.1, ha.2.1, hw, by simpa [Unsent, h2, h3, h4, h5] using ha.2.2.2⟩
  case add1 => exact ⟨ha.1, ha.2.1, hw, by simpa [Unsent, h2, h3, h4, h5] using ha.2.2.2⟩
  case add2 => exact ⟨ha.1, ha.2.1, hw, by simpa [Unsent, h2, h3, h4, h5] using ha.2.2.2⟩
  case push => exact ⟨ha.1, ha.2.1, hw, by simpa [Unsent, h2, h3, h4, h5] using ha.2.2.2⟩
  case ready => exact ⟨ha.1, by rw [h5]; exact ha.2.1, hw, by simpa [Sent, h2, h3, h4] using ha.2.2.2⟩
  case look => exact ⟨ha.1, by rw [h5]; exact ha.2.1, hw, by simpa [Sent, h2, h3, h4] using ha.2.2.2⟩
  case wait =>
    exact ⟨ha.1, ha.2.1, by rw [h5]; exact ha.2.2.1, hw, by simpa [Sent, h2, h3, h4] using ha.2.2.2.2⟩

theorem inv_outer {h s s' evs c} (hi : Inv h s) (hs : step s (.outer c) = some (s', evs)) : Inv (h ++ evs) s' := by
  rw [step, if_neg (by simp [hi.alive])] at hs
  dsimp only [stepOuter] at hs
  cases ho : s.outer c <;> rw [ho] at hs <;> dsimp only at hs
  case off => cases hs
  case ended => cases hs
  all_goals
    have hc := hi.isCur (c := c) (by rintro ⟨h1, -⟩; rw [ho] at h1; rcases h1 with h1 | h1 <;> cases h1)
    have ha := hi.cur c hc
    have hne : s.outer c ≠ .off := by rw [ho]; decide
    have hw := ha.wt (.inl hne)
  case blocked =>
    split at hs
    · rename_i hr
      simp only [Option.some.injEq, Prod.mk.injEq] at hs
      obtain ⟨rfl, rfl⟩ := hs
      refine hi.next hc rfl (fun d hd => upd_of_ne _ _ hd) (fun d hd => upd_of_ne _ _ hd) (fun _ _ => rfl)
        (fun _ _ => rfl) (fun _ _ => rfl) hi.alive (by simp) (by simp) (ha.waiters hne ?_ rfl rfl rfl rfl rfl ?_) ?_ ?_
      · refine ⟨(by first | rfl | exact hw.chan), ?_, ?_, ?_, ?_, ?_, ?_, ?_⟩ <;> simp [upd_same, hr]
        have := hw.closed
        rw [ho] at this
        simpa using this
      · intro h6; rw [ho] at h6; cases h6
      · intro h7; simpa using hi.hnd c h7
      · simp
    · cases hs
  case sel =>
    split at hs
    · rename_i hr
      simp only [Option.some.injEq, Prod.mk.injEq] at hs
      obtain ⟨rfl, rfl⟩ := hs
      refine hi.next hc rfl (fun d hd => upd_of_ne _ _ hd) (fun d hd => rfl) (fun _ _ => rfl)
        (fun _ _ => rfl) (fun _ _ => rfl) hi.alive (by simp) (by simp) (ha.waiters hne ?_ rfl rfl rfl rfl rfl ?_) ?_ ?_
      · refine ⟨(by first | rfl | exact hw.chan), ?_, ?_, ?_, ?_, ?_, ?_, ?_⟩ <;> simp [upd_same, hr]
        · first | (have := hw.early; rw [ho] at this; simpa using this)
        · have := hw.closed
          rw [ho] at this
          simpa using this
        · exact hw.gone (.inl hr)
      · intro h6; rw [ho] at h6; cases h6
      · intro h7; simpa using hi.hnd c h7
      · simp
    · cases hs
  case close =>
    rw [hw.chan] at hs
    have hcl : s.isClosed c = false := by
      have := hw.closed
      rw [ho] at this
      simpa using this
    simp only [hcl, Bool.false_eq_true, if_false, Option.some.injEq, Prod.mk.injEq] at hs
    obtain ⟨rfl, rfl⟩ := hs
    refine hi.next hc rfl (fun d hd => upd_of_ne _ _ hd) (fun d hd => rfl) (fun _ _ => rfl)
      (fun d hd => upd_of_ne _ _ hd) (fun _ _ => rfl) hi.alive (by simp) (by simp)
      (ha.waiters hne ?_ rfl rfl rfl rfl rfl ?_) ?_ ?_
    · refine ⟨(by first | rfl | exact hw.chan), ?_, ?_, ?_, ?_, ?_, hw.gone, hw.parked⟩ <;> simp [upd_same]
      · first | (have := hw.early; rw [ho] at this; simpa using this)
      · intro h1; have := hw.blocked.mpr h1; rw [ho] at this; cases this
      · exact hw.clo (.inl ho)
    · intro _; exact upd_same ..
    · intro h7; simpa using hi.hnd c h7
    · simp

theorem inv_timeout {h s s' evs c} (hi : Inv h s) (hs : step s (.timeout c) = some (s', evs)) : Inv (h ++ evs) s' := by
  rw [step, if_neg (by simp [hi.alive])] at hs
  have ho : s.outer c = .sel := by
    by_cases ho : s.outer c = .sel
    · exact ho
    · simp [ho] at hs
  rw [if_pos ho] at hs
  have hc := hi.isCur (c := c) (by rintro ⟨h1, -⟩; rw [ho] at h1; rcases h1 with h1 | h1 <;> cases h1)
  have ha := hi.cur c hc
  have hne : s.outer c ≠ .off := by rw [ho]; decide
  have hw := ha.wt (.inl hne)
  simp only [Option.some.injEq, Prod.mk.injEq] at hs
  obtain ⟨rfl, rfl⟩ := hs
  refine hi.next hc rfl (fun d hd => upd_of_ne _ _ hd) (fun d hd => rfl) (fun _ _ => rfl)
    (fun _ _ => rfl) (fun _ _ => rfl) hi.alive (by simp) (by simp) (ha.waiters hne ?_ rfl rfl rfl rfl rfl ?_) ?_ ?_
  · refine ⟨(by first | rfl | exact hw.chan), ?_, ?_, ?_, ?_, ?_, hw.gone, hw.parked⟩ <;> simp [upd_same]
    · first | (have := hw.early; rw [ho] at this; simpa using this)
    · intro h1; have := hw.blocked.mpr h1; rw [ho] at this; cases this
    · have := hw.closed
      rw [ho] at this
      simpa using this
  · intro h6; rw [ho] at h6; cases h6
  · intro h7; simpa using (hi.hnd c h7)
  · simp

theorem inv_inner {h s s' evs c} (hi : Inv h s) (hs : step s (.inner c) = some (s', evs)) : Inv (h ++ evs) s' := by
  rw [step, if_neg (by simp [hi.alive])] at hs
  dsimp only [stepInner] at hs
  cases ho : s.inner c <;> rw [ho] at hs <;> dsimp only at hs
  case off => cases hs
  case parked => cases hs
  case closed => cases hs
  all_goals
    have hc := hi.isCur (c := c) (by rintro ⟨-, h1, -⟩; rw [ho] at h1; rcases h1 with h1 | h1 <;> cases h1)
    have ha := hi.cur c hc
    have hni : s.inner c ≠ .off := by rw [ho]; decide
    have hw := ha.wt (.inr (.inl hni))
    have hne := hw.off
    have hnb : s.outer c ≠ .blocked := fun h => hni (hw.blocked.mp h)
    have hnc : .timeout c ∉ h → ¬ (s.outer c = .close ∨ s.outer c = .ended) := by
      intro h2 h1
      have := hw.clo h1 h2
      rw [ho] at this; cases this
  case start =>
    split at hs
    · rename_i hz
      simp only [Option.some.injEq, Prod.mk.injEq] at hs
      obtain ⟨rfl, rfl⟩ := hs
      refine hi.next hc rfl (fun d hd => rfl) (fun d hd => upd_of_ne _ _ hd) (fun _ _ => rfl)
        (fun _ _ => rfl) (fun _ _ => rfl) hi.alive (by simp) (by simp) (ha.waiters hne ?_ rfl rfl rfl rfl rfl id) ?_ ?_
      · refine ⟨(by first | rfl | exact hw.chan), hw.off, hw.early, ?_, hw.closed, ?_, ?_, ?_⟩ <;> simp [upd_same, hz, hnb]
      · intro h7; simpa using hi.hnd c h7
      · simp
    · rename_i hz
      simp only [Option.some.injEq, Prod.mk.injEq] at hs
      obtain ⟨rfl, rfl⟩ := hs
      refine hi.next hc rfl (fun d hd => rfl) (fun d hd => upd_of_ne _ _ hd) (fun _ _ => rfl)
        (fun _ _ => rfl) (fun _ _ => rfl) hi.alive (by simp) (by simp) (ha.waiters hne ?_ rfl rfl rfl rfl rfl id) ?_ ?_
      · refine ⟨(by first | rfl | exact hw.chan), hw.off, hw.early, ?_, hw.closed, ?_, ?_, ?_⟩ <;> simp [upd_same, hnb]
        · intro h1; exact Classical.byContradiction fun h2 => hnc h2 h1
        · exact ha.wg1 hz
      · intro h7; simpa using hi.hnd c h7
      · simp
  case woke =>
    have hz := hw.gone (.inr ho)
    simp only [hz, if_true, Option.some.injEq, Prod.mk.injEq] at hs
    obtain ⟨rfl, rfl⟩ := hs
    refine hi.next hc rfl (fun d hd => rfl) (fun d hd => upd_of_ne _ _ hd) (fun _ _ => rfl)
      (fun _ _ => rfl) (fun _ _ => rfl) hi.alive (by simp) (by simp) (ha.waiters hne ?_ rfl rfl rfl hz.symm rfl id) ?_ ?_
    · refine ⟨(by first | rfl | exact hw.chan), hw.off, hw.early, ?_, hw.closed, ?_, ?_, ?_⟩ <;> simp [upd_same, hnb]
    · intro h7; simpa using hi.hnd c h7
    · simp

/-- A step of the actor. -/
theorem At.actor {h s s' c evs} (ha : At h s c) (hm : s.msg c ≠ .off) (hw : Wt (h ++ evs) s' c) (h1 : s'.pc = s.pc)
    (h2 : Sent s c → Sent s' c) (h5 : s'.ready c = s.ready c)
    (h6 : s.outer c = .ended → s'.outer c = .ended) : At (h ++ evs) s' c := by
  unfold At at ha ⊢
  rw [h1]
  cases hpc : s.pc <;> rw [hpc] at ha <;> dsimp only at ha ⊢
  case mk d => exact absurd ha.2.1.2.2.1 hm
  case idle =>
    obtain ⟨⟨ok, a⟩, b, -, d⟩ := ha
    refine ⟨⟨ok, by simp [a]⟩, by rw [h5, b], hw, ?_⟩
    rcases d with ⟨d1, -⟩ | ⟨d1, d2⟩
    · exact absurd d1 hm
    · refine .inr ⟨h2 d1, ?_⟩
      rcases d2 with d2 | d2
      · exact .inl (h6 d2)
      · exact .inr (by simp [d2])
  case recv => exact absurd ha.2.2.2.2.1 hm
  case add1 => exact absurd ha.2.2.2.2.1 hm
  case add2 => exact absurd ha.2.2.2.2.1 hm
  case push => exact absurd ha.2.2.2.2.1 hm
  case ready => exact ⟨ha.1, by rw [h5]; exact ha.2.1, hw, h2 ha.2.2.2⟩
  case look => exact ⟨ha.1, by rw [h5]; exact ha.2.1, hw, h2 ha.2.2.2⟩
  case wait => exact ⟨ha.1, ha.2.1, by rw [h5]; exact ha.2.2.1, hw, h2 ha.2.2.2.2⟩

theorem At.sent {h s c} (ha : At h s c) (hm : s.msg c ≠ .off) : Sent s c := by
  unfold At at ha
  cases hpc : s.pc <;> rw [hpc] at ha <;> dsimp only at ha
  case mk d => exact absurd ha.2.1.2.2.1 hm
  case idle =>
    obtain ⟨-, -, -, ⟨d1, -⟩ | ⟨d1, -⟩⟩ := ha
    · exact absurd d1 hm
    · exact d1
  case recv => exact absurd ha.2.2.2.2.1 hm
  case add1 => exact absurd ha.2.2.2.2.1 hm
  case add2 => exact absurd ha.2.2.2.2.1 hm
  case push => exact absurd ha.2.2.2.2.1 hm
  case ready => exact ha.2.2.2
  case look => exact ha.2.2.2
  case wait => exact ha.2.2.2.2

theorem inv_actor {h s s' evs c} (hi : Inv h s) (hs : step s (.actor c) = some (s', evs)) : Inv (h ++ evs) s' := by
  rw [step, if_neg (by simp [hi.alive])] at hs
  dsimp only [stepActor] at hs
  cases ho : s.msg c <;> rw [ho] at hs <;> dsimp only at hs
  case off => cases hs
  case done => cases hs
  all_goals
    have hc := hi.isCur (c := c) (by rintro ⟨-, -, h1⟩; rw [ho] at h1; rcases h1 with h1 | h1 <;> cases h1)
    have ha := hi.cur c hc
    have hm : s.msg c ≠ .off := by rw [ho]; decide
    have hw := ha.wt (.inr (.inr hm))
    have hsn := ha.sent hm
    simp only [Sent, ho] at hsn
    simp only [reduceCtorEq, false_and, or_false, true_and, false_or] at hsn
    simp only [Option.some.injEq, Prod.mk.injEq] at hs
    obtain ⟨rfl, rfl⟩ := hs
  case queued =>
    refine hi.next hc rfl (fun d hd => rfl) (fun d hd => rfl) (fun d hd => upd_of_ne _ _ hd)
      (fun _ _ => rfl) (fun _ _ => rfl) hi.alive (by simp) (by simp)
      (ha.actor hm ⟨(by first | rfl | exact hw.chan), hw.off, hw.early, hw.blocked, hw.closed, (hw.mono []).clo, hw.gone, hw.parked⟩ rfl ?_ rfl id)
      ?_ ?_
    · intro _; simp [Sent, upd_same, hsn]
    · simp [upd_same]
    · simp
  case handling =>
    refine hi.next hc rfl (fun d hd => rfl) (fun d hd => rfl) (fun d hd => upd_of_ne _ _ hd)
      (fun _ _ => rfl) (fun _ _ => rfl) hi.alive (by simp) (by simp)
      (ha.actor hm ⟨(by first | rfl | exact hw.chan), hw.off, hw.early, hw.blocked, hw.closed, (hw.mono _).clo, hw.gone, hw.parked⟩ rfl ?_ rfl id)
      ?_ ?_
    · intro _; simp [Sent, upd_same, hsn]
    · simp
    · simp
  case rel1 =>
    refine hi.next hc rfl (fun d hd => rfl) (fun d hd => rfl) (fun d hd => upd_of_ne _ _ hd)
      (fun _ _ => rfl) (fun _ _ => rfl) hi.alive (by simp) (by simp)
      (ha.actor hm ⟨(by first | rfl | exact hw.chan), hw.off, hw.early, hw.blocked, hw.closed, (hw.mono []).clo, hw.gone, hw.parked⟩ rfl ?_ rfl id)
      ?_ ?_
    · intro _; simp [Sent, upd_same, hsn]
    · intro _; simpa using hi.hnd c (.inl ho)
    · simp
  case rel2 =>
    have hpk : ∀ d, d ≠ c → s.inner d ≠ .parked := by
      intro d hd hp
      have := hi.isCur (c := d) (by rintro ⟨-, h1, -⟩; rw [hp] at h1; rcases h1 with h1 | h1 <;> cases h1)
      omega
    have hg : s.inner c ≠ .closed ∧ s.inner c ≠ .woke := by
      constructor <;> intro h1
      · have := hw.gone (.inl h1); omega
      · have := hw.gone (.inr h1); omega
    refine hi.next hc rfl (fun d hd => rfl) ?_ (fun d hd => upd_of_ne _ _ hd)
      (fun _ _ => rfl) (fun _ _ => rfl) hi.alive (by simp) (by simp) (ha.actor hm ?_ rfl ?_ rfl id) ?_ ?_
    · intro d hd
      simp [hsn.2, hpk d hd]
    · refine ⟨(by first | rfl | exact hw.chan), hw.off, hw.early, ?_, hw.closed, ?_, ?_, ?_⟩ <;> simp only [hsn.2, if_true]
      · by_cases hp : s.inner c = .parked
        · simp only [hp, if_true]
          constructor
          · intro h1; have := hw.blocked.mp h1; rw [hp] at this; cases this
          · intro h1; cases h1
        · simp only [hp, if_false]; exact hw.blocked
      · intro h1 h2
        have := hw.clo h1 (by simpa using h2)
        exact absurd this hg.1
      · intro _; omega
      · by_cases hp : s.inner c = .parked
        · simp [hp]
        · simp [hp]
    · intro _; simp [Sent, upd_same, hsn]
    · intro _; simpa using hi.hnd c (.inr (.inl ho))
    · simp

theorem Inv.last {h s} (hi : Inv h s) (hp : s.pc ≠ .idle) : ∃ c, s.n = c + 1 ∧ At h s c := by
  cases hn : s.n with
  | zero => exact absurd (hi.first hn).1 hp
  | succ c => exact ⟨c, rfl, hi.cur c hn⟩

theorem inv_expire {h s s' evs} (hi : Inv h s) (hs : step s .expire = some (s', evs)) : Inv (h ++ evs) s' := by
  rw [step, if_neg (by simp [hi.alive])] at hs
  cases hp : s.pc <;> rw [hp] at hs <;> dsimp only at hs
  case wait c d =>
    simp only [Option.some.injEq, Prod.mk.injEq] at hs
    obtain ⟨rfl, rfl⟩ := hs
    obtain ⟨x, hc, ha⟩ := hi.last (by rw [hp]; simp)
    simp only [At, hp] at ha
    obtain ⟨rfl, rfl, h1, h2, h3⟩ := ha
    refine hi.next hc rfl (fun _ _ => rfl) (fun _ _ => rfl) (fun _ _ => rfl) (fun _ _ => rfl) (fun _ _ => rfl) hi.alive
      (by simp) (by simp) ?_ (fun h7 => by simpa using (hi.hnd _ h7)) (by simp)
    simp only [At]
    exact ⟨⟨false, by simp⟩, h1, ⟨h2.chan, h2.off, h2.early, h2.blocked, h2.closed, (h2.mono _).clo, h2.gone, h2.parked⟩,
      .inr ⟨h3, .inr (by simp)⟩⟩
  all_goals cases hs

theorem inv_go {h s s' evs r} (hi : Inv h s) (hs : step s (.go r) = some (s', evs)) : Inv (h ++ evs) s' := by
  rw [step, if_neg (by simp [hi.alive])] at hs
  dsimp only [stepGo] at hs
  cases hp : s.pc <;> rw [hp] at hs <;> dsimp only at hs
  case idle => cases hs
  all_goals
    obtain ⟨x, hc, ha⟩ := hi.last (by rw [hp]; simp)
    simp only [At, hp] at ha
  case mk c =>
    obtain ⟨rfl, ⟨n1, n2, n3, n4, n5⟩, h1, h2⟩ := ha
    simp only [Option.some.injEq, Prod.mk.injEq] at hs
    obtain ⟨rfl, rfl⟩ := hs
    refine hi.next hc rfl (fun d hd => upd_of_ne _ _ hd) (fun _ _ => rfl) (fun _ _ => rfl) (fun _ _ => rfl) (fun _ _ => rfl)
      hi.alive (by simp) (by simp) ?_ (fun h7 => by simpa using (hi.hnd _ h7)) (by simp)
    simp only [At, Unsent]
    refine ⟨trivial, trivial, ⟨rfl, ?_, ?_, ?_, ?_, ?_, ?_, ?_⟩, n5, n3, h1, h2⟩ <;> simp [upd_same, n2, n4]
  case recv c root =>
    obtain ⟨rfl, rfl, hw, u1, u2, u3, u4⟩ := ha
    cases r with
    | true =>
      simp only [if_true, Option.some.injEq, Prod.mk.injEq] at hs
      obtain ⟨rfl, rfl⟩ := hs
      refine hi.next hc rfl (fun d hd => rfl) (fun _ _ => rfl) (fun _ _ => rfl) (fun _ _ => rfl)
        (fun d hd => upd_of_ne _ _ hd)
        hi.alive (by simp) (by simp) ?_ (fun h7 => by simpa using (hi.hnd _ h7)) (by simp)
      simp only [At]
      refine ⟨⟨false, by simp⟩, upd_same .., ⟨(by first | rfl | exact hw.chan), hw.off, ?_, hw.blocked, hw.closed, (hw.mono _).clo, hw.gone,
        hw.parked⟩, .inl ⟨u2, u3, u4, by simp⟩⟩
      simp [upd_same]
    | false =>
      simp only [Bool.false_eq_true, if_false, Option.some.injEq, Prod.mk.injEq] at hs
      obtain ⟨rfl, rfl⟩ := hs
      refine hi.next hc rfl (fun d hd => rfl) (fun _ _ => rfl) (fun _ _ => rfl) (fun _ _ => rfl) (fun _ _ => rfl)
        hi.alive (by simp) (by simp) ?_ (fun h7 => by simpa using (hi.hnd _ h7)) (by simp)
      simp only [At, Unsent]
      exact ⟨trivial, trivial, ⟨(by first | rfl | exact hw.chan), hw.off, hw.early, hw.blocked, hw.closed, (hw.mono _).clo, hw.gone,
        hw.parked⟩, u1, u2, u3, u4⟩
  case add1 c root =>
    obtain ⟨rfl, rfl, hw, u1, u2, u3, u4⟩ := ha
    simp only [Option.some.injEq, Prod.mk.injEq] at hs
    obtain ⟨rfl, rfl⟩ := hs
    refine hi.next hc rfl (fun d hd => rfl) (fun _ _ => rfl) (fun _ _ => rfl) (fun _ _ => rfl) (fun _ _ => rfl)
      hi.alive (by simp) (by simp) ?_ (fun h7 => by simpa using (hi.hnd _ h7)) (by simp)
    simp only [At, Unsent]
    exact ⟨trivial, trivial, ⟨(by first | rfl | exact hw.chan), hw.off, hw.early, hw.blocked, hw.closed, (hw.mono _).clo, hw.gone,
      hw.parked⟩, u1, u2, by omega, u4⟩
  case add2 c root =>
    obtain ⟨rfl, rfl, hw, u1, u2, u3, u4⟩ := ha
    simp only [Option.some.injEq, Prod.mk.injEq] at hs
    obtain ⟨rfl, rfl⟩ := hs
    have hb := hw.early u1
    have hin := hw.blocked.mp hb
    refine hi.next hc rfl (fun d hd => rfl) (fun _ _ => rfl) (fun _ _ => rfl) (fun _ _ => rfl) (fun _ _ => rfl)
      hi.alive (by simp) (by simp) ?_ (fun h7 => by simpa using (hi.hnd _ h7)) (by simp)
    simp only [At, Unsent]
    refine ⟨trivial, trivial, ⟨(by first | rfl | exact hw.chan), hw.off, hw.early, hw.blocked, hw.closed, (hw.mono _).clo, ?_, ?_⟩,
      u1, u2, u3, by omega⟩ <;> simp [hin]
  case push c root =>
    obtain ⟨rfl, rfl, hw, u1, u2, u3, u4⟩ := ha
    simp only [if_true, Option.some.injEq, Prod.mk.injEq] at hs
    obtain ⟨rfl, rfl⟩ := hs
    refine hi.next hc rfl (fun d hd => rfl) (fun _ _ => rfl) (fun d hd => upd_of_ne _ _ hd) (fun _ _ => rfl) (fun _ _ => rfl)
      hi.alive (by simp) (by simp) ?_ (by simp [upd_same]) (by simp)
    simp only [At, Sent]
    exact ⟨trivial, u1, ⟨(by first | rfl | exact hw.chan), hw.off, hw.early, hw.blocked, hw.closed, (hw.mono _).clo, hw.gone,
      hw.parked⟩, .inl ⟨.inl (upd_same ..), u3, u4⟩⟩
  case ready c =>
    obtain ⟨rfl, u1, hw, u2⟩ := ha
    simp only [Option.some.injEq, Prod.mk.injEq] at hs
    obtain ⟨rfl, rfl⟩ := hs
    refine hi.next hc rfl (fun d hd => rfl) (fun _ _ => rfl) (fun d hd => rfl) (fun _ _ => rfl) (fun d hd => upd_of_ne _ _ hd)
      hi.alive (by simp) (by simp) ?_ (fun h7 => by simpa using (hi.hnd _ h7)) (by simp)
    simp only [At]
    refine ⟨trivial, upd_same .., ⟨(by first | rfl | exact hw.chan), hw.off, ?_, hw.blocked, hw.closed, (hw.mono _).clo, hw.gone,
      hw.parked⟩, u2⟩
    simp [upd_same]
  case look c =>
    obtain ⟨rfl, u1, hw, u2⟩ := ha
    rw [hw.chan] at hs
    simp only [Option.some.injEq, Prod.mk.injEq] at hs
    obtain ⟨rfl, rfl⟩ := hs
    refine hi.next hc rfl (fun d hd => rfl) (fun _ _ => rfl) (fun d hd => rfl) (fun _ _ => rfl) (fun d hd => rfl)
      hi.alive (by simp) (by simp) ?_ (fun h7 => by simpa using (hi.hnd _ h7)) (by simp)
    simp only [At]
    exact ⟨trivial, trivial, u1, ⟨(by first | rfl | exact hw.chan), hw.off, hw.early, hw.blocked, hw.closed, (hw.mono _).clo, hw.gone,
      hw.parked⟩, u2⟩
  case wait c d =>
    obtain ⟨rfl, rfl, u1, hw, u2⟩ := ha
    split at hs
    · rename_i hcl
      simp only [Option.some.injEq, Prod.mk.injEq] at hs
      obtain ⟨rfl, rfl⟩ := hs
      have he := hw.closed.mp hcl
      refine hi.next hc rfl (fun d hd => rfl) (fun _ _ => rfl) (fun d hd => rfl) (fun _ _ => rfl) (fun d hd => rfl)
        hi.alive (by simp) (by simp) ?_ (fun h7 => by simpa using (hi.hnd _ h7)) ?_
      · simp only [At]
        exact ⟨⟨true, by simp⟩, u1, ⟨(by first | rfl | exact hw.chan), hw.off, hw.early, hw.blocked, hw.closed, (hw.mono _).clo, hw.gone,
          hw.parked⟩, .inr ⟨u2, .inl he⟩⟩
      · intro x hx
        simp only [List.mem_singleton, Ev.ret.injEq, and_true] at hx
        subst hx
        refine ⟨rfl, fun ht => ?_⟩
        have hz := hw.gone (.inl (hw.clo (.inr he) ht))
        rcases u2 with ⟨-, -, h1⟩ | ⟨-, -, h1⟩ | ⟨h1, -, -⟩
        · omega
        · omega
        · exact hi.hnd _ (.inr (.inr h1))
    · cases hs

/-- Everything but the beginning of a call. -/
theorem inv_step {h s s' evs a} (hi : Inv h s) (hs : step s a = some (s', evs))
    (hov : a = .call → ∀ c, s.n = c + 1 → Over s c) : Inv (h ++ evs) s' := by
  cases a with
  | call => exact inv_call hi hs (hov rfl)
  | go r => exact inv_go hi hs
  | expire => exact inv_expire hi hs
  | outer c => exact inv_outer hi hs
  | timeout c => exact inv_timeout hi hs
  | inner c => exact inv_inner hi hs
  | actor c => exact inv_actor hi hs

/-- At rest the last call is over and has returned. -/
theorem rest_over {h s} (hi : Inv h s) (hr : AtRest s) : s.pc = .idle ∧ ∀ c, s.n = c + 1 → Over s c := by
  have hgo := fun r => hr (.go r) trivial
  have hou := fun c => hr (.outer c) trivial
  have hin := fun c => hr (.inner c) trivial
  have hac := fun c => hr (.actor c) trivial
  simp only [step, hi.alive, Bool.false_eq_true, if_false] at hgo hou hin hac
  have hm : ∀ c, s.msg c = .off ∨ s.msg c = .done := by
    intro c
    have := hac c
    unfold stepActor at this
    cases h1 : s.msg c <;> rw [h1] at this <;> simp at this ⊢
  have hw0 : ∀ c, s.ready c = true → Wt h s c → s.wg = 0 → s.outer c = .ended ∧ s.inner c = .closed := by
    intro c h1 hw hz
    have hb : s.outer c ≠ .blocked := by
      intro hb
      have := hou c
      simp [stepOuter, hb, h1] at this
    have hi1 : s.inner c = .closed := by
      have := hin c
      unfold stepInner at this
      cases h2 : s.inner c <;> rw [h2] at this
      · exact absurd (hw.blocked.mpr h2) hb
      · simp [hz] at this
      · have := hw.parked h2; omega
      · simp [hz] at this
    refine ⟨?_, hi1⟩
    have := hou c
    unfold stepOuter at this
    cases h2 : s.outer c <;> rw [h2] at this
    · exact absurd h2 hw.off
    · exact absurd h2 hb
    · simp [hi1] at this
    · rw [hw.chan] at this
      dsimp only at this
      split at this <;> cases this
  have hsent : ∀ c, Sent s c → s.wg = 0 := by
    intro c hs
    rcases hs with ⟨h1, -⟩ | ⟨h1, -⟩ | ⟨-, -, h1⟩
    · rcases h1 with h1 | h1 | h1 <;> rcases hm c with h2 | h2 <;> rw [h1] at h2 <;> cases h2
    · rcases hm c with h2 | h2 <;> rw [h1] at h2 <;> cases h2
    · exact h1
  have hidle : s.pc = .idle := by
    by_cases hp : s.pc = .idle
    · exact hp
    · obtain ⟨c, hc, ha⟩ := hi.last hp
      have h1 := hgo true
      unfold stepGo at h1
      cases hpc : s.pc <;> rw [hpc] at h1 <;> dsimp only at h1
      case recv => simp at h1
      case push d r => cases r <;> cases h1
      case look d =>
        simp only [At, hpc] at ha
        rw [ha.2.2.1.chan] at h1
        cases h1
      case wait d e =>
        simp only [At, hpc] at ha
        obtain ⟨rfl, rfl, u1, hw, u2⟩ := ha
        have := (hw0 _ u1 hw (hsent _ u2)).1
        rw [hw.closed.mpr this] at h1
        cases h1
      all_goals cases h1
  refine ⟨hidle, fun c hc => ?_⟩
  have ha := hi.cur c hc
  simp only [At, hidle] at ha
  obtain ⟨-, u1, hw, u2⟩ := ha
  have hz : s.wg = 0 := by
    rcases u2 with ⟨-, -, h1, -⟩ | ⟨h1, -⟩
    · exact h1
    · exact hsent c h1
  obtain ⟨h1, h2⟩ := hw0 c u1 hw hz
  exact ⟨.inr h1, .inr h2, hm c⟩

/-- After a smooth call everything is over. -/
theorem smooth_over {h s} (hi : Inv h s) (hp : s.pc = .idle)
    (hn : ∀ d, .refused d ∉ h ∧ .timeout d ∉ h ∧ .expired d ∉ h) : ∀ c, s.n = c + 1 → Over s c := by
  intro c hc
  have ha := hi.cur c hc
  simp only [At, hp] at ha
  obtain ⟨-, u1, hw, ⟨-, -, -, u2⟩ | ⟨u2, u3⟩⟩ := ha
  · exact absurd u2 (hn c).1
  · have he : s.outer c = .ended := by
      rcases u3 with u3 | u3
      · exact u3
      · exact absurd u3 (hn c).2.2
    have hcl := hw.clo (.inr he) (hn c).2.1
    have hz := hw.gone (.inl hcl)
    refine ⟨.inr he, .inr hcl, ?_⟩
    rcases u2 with ⟨-, -, h1⟩ | ⟨-, -, h1⟩ | ⟨h1, -, -⟩
    · omega
    · omega
    · exact .inr h1

theorem patient_inv {h s} (hp : Patient h s) : Inv h s := by
  induction hp with
  | init => exact inv_init
  | step _ hs ha ih => exact inv_step ih hs (fun hc => (rest_over ih (ha hc)).2)

theorem smooth_inv {h s} (hr : sys.Run h s) (hm : Smooth h) : Inv h s := by
  induction hr with
  | init => exact inv_init
  | step hr' hs ih =>
    rename_i h s a s' evs
    have hm' : Smooth h := by
      intro h1 h2 c he
      exact hm h1 (h2 ++ evs) c (by rw [he]; simp)
    have hi := ih hm'
    refine inv_step hi hs ?_
    rintro rfl
    have hs' : step s .call = some (s', evs) := hs
    rw [step, if_neg (by simp [hi.alive])] at hs'
    have hpc : s.pc = .idle := by
      by_cases hp : s.pc = .idle
      · exact hp
      · simp [hp] at hs'
    refine smooth_over hi hpc ?_
    have hev : ∃ r, evs = .begin s.n :: r := by
      rw [if_pos hpc] at hs'
      split at hs' <;> simp only [Option.some.injEq, Prod.mk.injEq] at hs'
      · exact ⟨_, hs'.2.symm⟩
      · exact ⟨_, hs'.2.symm⟩
    obtain ⟨r, rfl⟩ := hev
    exact hm h r s.n rfl

end Braid.Reuse
