import Verif.Actor.Inv2

/-
Invariants of the actor: closing.
-/
namespace Braid.Actor
open Spec

/-- The message has been taken from the mailbox. -/
def Taken (h : List Ev) (s : State) (id : Nat) (m : Msg) : Prop :=
  .start id m ∈ h ∨ (id, m) ∈ s.mb.cons.inflight

set_option maxHeartbeats 1000000 in
theorem taken_step {self : String} {h : List Ev} {s s' : State} {a : Act} {evs : List Ev} {id : Nat}
    {m : Msg} (ht : Taken h s id m) (hs : step self s a = some (s', evs)) :
    Taken (h ++ evs) s' id m := by
  rcases ht with ht | ht
  · exact .inl (List.mem_append_left _ ht)
  · unfold Taken
    cases a <;> step_cases hs <;> first
      | exact .inr ht
      | (rename_i hst
         have := Mpsc.inflight_step hst ht
         first
           | (have h1 := (Mpsc.step_push hst).2.2.2.2.1; rw [h1]; exact .inr ht)
           | (have h1 := (Mpsc.step_recv hst).2.2.1; rw [h1] at ht; simp [Mpsc.CPc.inflight] at ht)
           | simpa using this
           | (simp at this ⊢; grind)
           | grind)

structure InvK (h : List Ev) (s : State) : Prop where
  off : s.chk = .off ↔ s.closed = 0
  mem : s.chk ≠ .off → .closing ∈ h
  memr : .closing ∈ h → s.chk ≠ .off
  forced : s.chk = .cas true → .forced ∈ h
  ch : s.closeCh = true → s.chk = .finished
  two : s.closed = 2 → s.chk = .close ∨ s.chk = .finished
  le : s.closed ≤ 2
  fin : s.chk = .close ∨ s.chk = .finished → s.closed = 2
  ret : ∀ x, .exitRet x ∈ h → s.closeCh = true
  stop : .loopEnd ∈ h → s.closeCh = true
  stopped : s.loop = .stopped ↔ .loopEnd ∈ h

theorem invK_init : InvK [] init := by
  constructor <;> simp [init]

set_option maxHeartbeats 4000000 in
theorem invK_step {self : String} {h : List Ev} {s s' : State} {a : Act} {evs : List Ev}
    (hi : InvK h s) (hs : step self s a = some (s', evs)) : InvK (h ++ evs) s' := by
  obtain ⟨i1, i2, i3, i4, i5, i6, i7, i8, i9, i10, i11⟩ := hi
  cases a <;> step_cases hs <;> constructor <;> grind

theorem invK_run {self : String} {h : List Ev} {s : State} (hr : (sys self).Run h s) : InvK h s :=
  hr.invariant invK_init fun _ _ _ _ _ _ hi hs => invK_step hi hs

/-- `checkClose` has seen the mailbox empty and will not look again. -/
def Passed (h : List Ev) (s : State) : Prop :=
  s.chk = .testR ∨ s.chk = .cas false ∨ ((s.chk = .close ∨ s.chk = .finished) ∧ .forced ∉ h)

/-- Of two different members of a list one comes before the other. -/
theorem before_total {α : Type} {l : List α} {x y : α} (hx : x ∈ l) (hy : y ∈ l) (hne : x ≠ y) :
    Before l x y ∨ Before l y x := by
  induction l with
  | nil => cases hx
  | cons a l ih =>
    rcases List.mem_cons.1 hx with hxa | hx'
    · rcases List.mem_cons.1 hy with hya | hy'
      · exact absurd (hxa.trans hya.symm) hne
      · exact .inl (hxa ▸ .cons_cons _ (List.singleton_sublist.2 hy'))
    · rcases List.mem_cons.1 hy with hya | hy'
      · exact .inr (hya ▸ .cons_cons _ (List.singleton_sublist.2 hx'))
      · exact (ih hx' hy').imp (.cons _) (.cons _)

/-- What has been accepted before closing, and is not behind a delivery under way, is taken. -/
def Drained (h : List Ev) (s : State) : Prop :=
  ∀ h1, h1 <+: h → .closing ∉ h1 → ∀ p id m, .accepted p id m ∈ h1 → Unhidden h1 p id m → Taken h s id m

theorem mem_projQ {h : List Ev} {e : Ev} {x : Mpsc.Ev Msg} (hm : e ∈ h) (hp : projQ e = some x) :
    x ∈ h.filterMap projQ := List.mem_filterMap.2 ⟨e, hm, hp⟩

theorem pushInv_mem {h : List Ev} {p id : Nat} {m : Msg}
    (hm : Mpsc.Ev.pushInv p id m ∈ h.filterMap projQ) : .enter p id m ∈ h := by
  obtain ⟨e, h1, h2⟩ := List.mem_filterMap.1 hm
  cases e <;> simp_all [projQ]

theorem pushRet_mem {h : List Ev} {id : Nat} (hm : Mpsc.Ev.pushRet id ∈ h.filterMap projQ) :
    ∃ p m, .accepted p id m ∈ h := by
  obtain ⟨e, h1, h2⟩ := List.mem_filterMap.1 hm
  cases e <;> simp_all [projQ]
  exact ⟨_, _, h1⟩

theorem popped_eq (h : List Ev) : Mpsc.popped (h.filterMap projQ) = started h := by
  induction h with
  | nil => rfl
  | cons e h ih => cases e <;> simp_all [List.filterMap_cons, projQ, started, Mpsc.popped]

theorem mem_started {h : List Ev} {id : Nat} {m : Msg} : (id, m) ∈ started h ↔ .start id m ∈ h := by
  simp only [started, List.mem_filterMap]
  constructor
  · rintro ⟨e, h1, h2⟩; cases e <;> simp_all
  · intro hm; exact ⟨_, hm, rfl⟩

/-- The message of an accepted push is the one that entered. -/
theorem accepted_enter {self : String} {h : List Ev} {s : State} (hr : (sys self).Run h s)
    {p id : Nat} {m : Msg} (ha : .accepted p id m ∈ h) : .enter p id m ∈ h := by
  have hw := (invW_run hr).enter p
  have h1 : (id, m) ∈ h.filterMap (fAccepted p) :=
    List.mem_filterMap.2 ⟨_, ha, by simp [fAccepted]⟩
  have h2 : (id, m) ∈ h.filterMap (fEnter p) := by rw [hw]; exact List.mem_append_left _ h1
  obtain ⟨e, h3, h4⟩ := List.mem_filterMap.1 h2
  cases e <;> simp [fEnter] at h4
  obtain ⟨rfl, rfl, rfl⟩ := h4
  exact h3

theorem before_of_prefix {h1 h : List Ev} {x y : Ev} (hp : h1 <+: h) (hx : x ∈ h1) (hy : y ∈ h)
    (hny : y ∉ h1) : Before h x y := by
  obtain ⟨t, rfl⟩ := hp
  have hy : y ∈ t := (List.mem_append.1 hy).resolve_left hny
  exact List.Sublist.append (List.singleton_sublist.2 hx) (List.singleton_sublist.2 hy)

theorem drained_of_empty {self : String} {h : List Ev} {s : State} (hr : (sys self).Run h s)
    (he : Mpsc.empty s.mb = true) : Drained h s := by
  intro h1 hpre _ p id m ha hun
  have hq := (invQ_run hr).runQ
  obtain ⟨order, hex, hall⟩ := Mpsc.empty_drained hq he
  have ha' := hpre.subset ha
  have hent := accepted_enter hr ha'
  rcases hall id (mem_projQ ha' rfl) with ⟨x, hx⟩ | ⟨q, b, y, x, hb, hnb, hbef⟩
  · rw [popped_eq] at hx
    have hxm : x = m := by
      have hin : (id, x) ∈ order := by
        rcases List.mem_append.1 hx with hx | hx
        · exact hex.fifo.subset (by rw [popped_eq]; exact hx)
        · obtain ⟨order', k, pend, A, B, C⟩ := Mpsc.run_inv hq
          have : (id, x) ∈ order'.take k := by rw [← B.pops]; exact List.mem_append_right _ hx
          obtain ⟨q, hq1⟩ := B.called id x (List.mem_of_mem_take this)
          obtain ⟨y, hy⟩ := hex.complete id (mem_projQ ha' rfl)
          obtain ⟨q', hq2⟩ := hex.called id y hy
          rw [(Mpsc.push_uniq hq hq1 hq2).2]; exact hy
      obtain ⟨q, hq1⟩ := hex.called id x hin
      exact (Mpsc.push_uniq hq hq1 (mem_projQ hent rfl)).2
    subst hxm
    rcases List.mem_append.1 hx with hx | hx
    · exact .inl (mem_started.1 hx)
    · exact .inr hx
  · exfalso
    have hb' := pushInv_mem hb
    have hBef0 : Before h (.accepted p id m) (.enter q b y) := by
      by_cases hin : Ev.enter q b y ∈ h1
      · rcases before_total hin ha (by simp) with h2 | h2
        · exact absurd (mem_projQ (hpre.subset (hun q b y h2)) rfl) hnb
        · exact h2.trans hpre.sublist
      · exact before_of_prefix hpre ha hb' hin
    have hBef := before_filterMap (f := projQ) hBef0 rfl rfl
    obtain ⟨x', hx'⟩ := hex.realTime id b q y hBef hbef.mem_left
    exact Mpsc.before_irrefl hex.once hx' hbef

theorem drained_mono {self : String} {h : List Ev} {s s' : State} {a : Act} {evs : List Ev}
    (hd : Drained h s) (hc : .closing ∈ h) (hs : step self s a = some (s', evs)) :
    Drained (h ++ evs) s' := by
  intro h1 hp hnc p id m ha hun
  have hp' : h1 <+: h := by
    rcases List.prefix_or_prefix_of_prefix hp (List.prefix_append h evs) with h2 | h2
    · exact h2
    · exact absurd (h2.subset hc) hnc
  exact taken_step (hd h1 hp' hnc p id m ha hun) hs

theorem passed_step {self : String} {h : List Ev} {s s' : State} {a : Act} {evs : List Ev}
    (hk : InvK h s) (hs : step self s a = some (s', evs)) (hp : Passed (h ++ evs) s') :
    Passed h s ∨ (Mpsc.empty s.mb = true ∧ s.chk = .testQ ∧ evs = [] ∧ s'.mb = s.mb) := by
  obtain ⟨i1, i2, i3, i4, i5, i6, i7, i8, i9, i10, i11⟩ := hk
  have i4' : ∀ b, s.chk = .cas b → b = false ∨ .forced ∈ h := by
    intro b hb; cases b
    · exact .inl rfl
    · exact .inr (i4 hb)
  clear i4
  unfold Passed at *
  cases a <;> step_cases hs <;> grind

theorem drained_run {self : String} {h : List Ev} {s : State} (hr : (sys self).Run h s)
    (hp : Passed h s) : Drained h s := by
  have := hr.invariant (P := fun h s => Passed h s → Drained h s)
    (by intro hp; simp [Passed, init, sys] at hp)
    (by
      intro h s a s' evs hr hi hs hp
      have hk := invK_run hr
      rcases passed_step hk hs hp with hp' | ⟨he, hq, rfl, hmb⟩
      · refine drained_mono (hi hp') (hk.mem ?_) hs
        rcases hp' with h | h | h
        · simp [h]
        · simp [h]
        · rcases h.1 with h | h <;> simp [h]
      · have := drained_of_empty hr he
        exact drained_mono this (hk.mem (by simp [hq])) hs)
  exact this hp

end Braid.Actor
