import Verif.Actor.Exit

/-
The reentry queue of an actor that is told to exit (helper lemmas).
-/
namespace Braid.Actor
open Spec

/-- The reentry message has been taken from its queue. -/
def TakenR (h : List Ev) (s : State) (id r : Nat) : Prop :=
  .actionStart id r ∈ h ∨ (id, r) ∈ s.rq.cons.inflight

set_option maxHeartbeats 1000000 in
theorem takenR_step {self : String} {h : List Ev} {s s' : State} {a : Act} {evs : List Ev} {id r : Nat}
    (ht : TakenR h s id r) (hs : step self s a = some (s', evs)) : TakenR (h ++ evs) s' id r := by
  rcases ht with ht | ht
  · exact .inl (List.mem_append_left _ ht)
  · unfold TakenR
    cases a <;> step_cases hs <;> first
      | exact .inr ht
      | (rename_i hst
         have := Mpsc.inflight_step hst ht
         first
           | (have h1 := (Mpsc.step_push hst).2.2.2.2.1; rw [h1]; exact .inr ht)
           | (have h1 := (Mpsc.step_recv hst).2.2.1; rw [h1] at ht; simp [Mpsc.CPc.inflight] at ht)
           | simpa using this
           | (simp at this ⊢; grind)
           | grind)

/-- `checkClose` has seen both queues empty and will not look again. -/
def PassedR (h : List Ev) (s : State) : Prop :=
  s.chk = .cas false ∨ ((s.chk = .close ∨ s.chk = .finished) ∧ .forced ∉ h)

def DrainedR (h : List Ev) (s : State) : Prop :=
  ∀ h1, h1 <+: h → .closing ∉ h1 → SettledR h1 → ∀ p id r, .renter p id r ∈ h1 → TakenR h s id r

theorem mem_projR {h : List Ev} {e : Ev} {x : Mpsc.Ev Nat} (hm : e ∈ h) (hp : projR e = some x) :
    x ∈ h.filterMap projR := List.mem_filterMap.2 ⟨e, hm, hp⟩

theorem rpushInv_mem {h : List Ev} {p id r : Nat}
    (hm : Mpsc.Ev.pushInv p id r ∈ h.filterMap projR) : .renter p id r ∈ h := by
  obtain ⟨e, h1, h2⟩ := List.mem_filterMap.1 hm
  cases e <;> simp_all [projR]

theorem mem_fActionStart {h : List Ev} {id r : Nat} : (id, r) ∈ h.filterMap fActionStart ↔ .actionStart id r ∈ h := by
  simp only [List.mem_filterMap]
  constructor
  · rintro ⟨e, h1, h2⟩; cases e <;> simp_all [fActionStart]
  · intro hm; exact ⟨_, hm, rfl⟩

theorem drainedR_of_empty {self : String} {h : List Ev} {s : State} (hr : (sys self).Run h s)
    (he : Mpsc.empty s.rq = true) : DrainedR h s := by
  intro h1 hpre _ hset p id r hen
  have hq := (invQ_run hr).runR
  obtain ⟨order, hex, hall⟩ := Mpsc.empty_drained hq he
  have hent := hpre.subset hen
  have ha' := hpre.subset (hset p id r hen)
  rcases hall id (mem_projR ha' rfl) with ⟨x, hx⟩ | ⟨q, b, y, x, hb, hnb, hbef⟩
  · rw [popped_projR] at hx
    have hxm : x = r := by
      have hin : (id, x) ∈ order := by
        rcases List.mem_append.1 hx with hx | hx
        · exact hex.fifo.subset (by rw [popped_projR]; exact hx)
        · obtain ⟨order', k, pend, A, B, C⟩ := Mpsc.run_inv hq
          have : (id, x) ∈ order'.take k := by rw [← B.pops]; exact List.mem_append_right _ hx
          obtain ⟨q, hq1⟩ := B.called id x (List.mem_of_mem_take this)
          obtain ⟨y, hy⟩ := hex.complete id (mem_projR ha' rfl)
          obtain ⟨q', hq2⟩ := hex.called id y hy
          rw [(Mpsc.push_uniq hq hq1 hq2).2]; exact hy
      obtain ⟨q, hq1⟩ := hex.called id x hin
      exact (Mpsc.push_uniq hq hq1 (mem_projR hent rfl)).2
    subst hxm
    rcases List.mem_append.1 hx with hx | hx
    · exact .inl (mem_fActionStart.1 hx)
    · exact .inr hx
  · exfalso
    have hb' := rpushInv_mem hb
    have hnb1 : Ev.renter q b y ∉ h1 := by
      intro hin
      exact hnb (mem_projR (hpre.subset (hset _ _ _ hin)) rfl)
    have hBef := before_filterMap (f := projR) (before_of_prefix hpre (hset p id r hen) hb' hnb1) rfl rfl
    obtain ⟨x', hx'⟩ := hex.realTime id b q y hBef hbef.mem_left
    exact Mpsc.before_irrefl hex.once hx' hbef

theorem drainedR_mono {self : String} {h : List Ev} {s s' : State} {a : Act} {evs : List Ev}
    (hd : DrainedR h s) (hc : .closing ∈ h) (hs : step self s a = some (s', evs)) :
    DrainedR (h ++ evs) s' := by
  intro h1 hp hnc hset p id r ha
  have hp' : h1 <+: h := by
    rcases List.prefix_or_prefix_of_prefix hp (List.prefix_append h evs) with h2 | h2
    · exact h2
    · exact absurd (h2.subset hc) hnc
  exact takenR_step (hd h1 hp' hnc hset p id r ha) hs

theorem passedR_step {self : String} {h : List Ev} {s s' : State} {a : Act} {evs : List Ev}
    (hk : InvK h s) (hs : step self s a = some (s', evs)) (hp : PassedR (h ++ evs) s') :
    PassedR h s ∨ (Mpsc.empty s.rq = true ∧ s.chk = .testR ∧ evs = [] ∧ s'.rq = s.rq) := by
  obtain ⟨i1, i2, i3, i4, i5, i6, i7, i8, i9, i10, i11⟩ := hk
  have i4' : ∀ b, s.chk = .cas b → b = false ∨ .forced ∈ h := by
    intro b hb; cases b
    · exact .inl rfl
    · exact .inr (i4 hb)
  clear i4
  unfold PassedR at *
  cases a <;> step_cases hs <;> grind

theorem drainedR_run {self : String} {h : List Ev} {s : State} (hr : (sys self).Run h s)
    (hp : PassedR h s) : DrainedR h s := by
  have := hr.invariant (P := fun h s => PassedR h s → DrainedR h s)
    (by intro hp; simp [PassedR, init, sys] at hp)
    (by
      intro h s a s' evs hr hi hs hp
      have hk := invK_run hr
      rcases passedR_step hk hs hp with hp' | ⟨he, hq, rfl, hmb⟩
      · refine drainedR_mono (hi hp') (hk.mem ?_) hs
        rcases hp' with h | h
        · simp [h]
        · rcases h.1 with h | h <;> simp [h]
      · exact drainedR_mono (drainedR_of_empty hr he) (hk.mem (by simp [hq])) hs)
  exact this hp

end Braid.Actor
