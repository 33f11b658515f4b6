import Verif.Unbounded.Spec

/-
Invariant of the unbounded buffer.
-/
namespace Braid.Unbounded
variable {T : Type}

/-- What the buffer still holds, given where the lock holder is. -/
def held (s : St T) : Pc T → List T
  | .putCheck t => s.ch.toList ++ s.backlog ++ [t]
  | .putSelect t => s.ch.toList ++ s.backlog ++ [t]
  | .putAppend t => s.ch.toList ++ s.backlog ++ [t]
  | .loadDrop => s.ch.toList ++ s.backlog.tail
  | _ => s.ch.toList ++ s.backlog

/-- Where the lock holder is; `idle` when the lock is free. -/
def holderPc (s : St T) : Pc T :=
  match s.lock with
  | none => .idle
  | some g => s.pc g

structure Inv (h : List (Ev T)) (s : St T) : Prop where
  /-- only the lock holder is inside a critical section -/
  owner : ∀ g, (s.pc g).outside = false ↔ s.lock = some g
  /-- accounting -/
  acc : recvs h ++ held s (holderPc s) = puts h
  /-- `Put` reached its select only with an empty backlog -/
  sel : ∀ t, holderPc s = .putSelect t → s.backlog = []
  /-- `Load` reached its select only with a backlog -/
  lsel : holderPc s = .loadSelect → s.backlog ≠ []
  /-- a backlog behind an empty channel will be loaded -/
  wake : s.ch = none → (s.backlog ≠ [] ∨ ∃ t, holderPc s = .putAppend t) →
    (∃ g, s.pc g = .got) ∨ holderPc s = .loadCheck ∨ holderPc s = .loadSelect

theorem inv_init : Inv [] (init T) := by
  constructor <;> simp [init, Pc.outside, held, holderPc]

private theorem got_upd {pc : Nat → Pc T} {g : Nat} {p : Pc T} (hg : pc g ≠ .got)
    (h : ∃ g', pc g' = .got) : ∃ g', upd pc g p g' = .got := by
  obtain ⟨g', h⟩ := h
  refine ⟨g', ?_⟩
  rw [upd_of_ne]; exact h
  rintro rfl; exact hg h

theorem inv_step {h : List (Ev T)} {s s' : St T} {a : Act T} {evs : List (Ev T)}
    (I : Inv h s) (hs : step s a = some (s', evs)) : Inv (h ++ evs) s' := by
  obtain ⟨ow, ac, sl, ls, wk⟩ := I
  cases a with
  | put g t =>
    simp only [step] at hs
    split at hs
    case h_2 => cases hs
    rename_i hp hl
    cases hs
    simp only [holderPc, hl] at ac sl ls wk
    refine ⟨?_, ?_, ?_, ?_, ?_⟩
    · intro g'
      by_cases e : g' = g
      · subst e; simp [Pc.outside]
      · have := ow g'; simp only [hl] at this
        simp only [upd_of_ne _ _ e, this]; simp; exact fun h => e h.symm
    · simp only [holderPc, upd_same, held, recvs_append, puts_append] at ac ⊢
      simp [← ac]
    · simp [holderPc]
    · simp [holderPc]
    · simp only [holderPc, upd_same]
      intro h1 h2
      have h3 := wk h1 (by simpa using h2)
      simp only [reduceCtorEq, or_false] at h3 ⊢
      exact got_upd (by simp [hp]) h3
  | load g =>
    simp only [step] at hs
    split at hs
    case isFalse => cases hs
    rename_i hp
    split at hs
    case h_2 => cases hs
    rename_i hl
    cases hs
    simp only [holderPc, hl] at ac sl ls wk
    refine ⟨?_, ?_, ?_, ?_, ?_⟩
    · intro g'
      by_cases e : g' = g
      · subst e; simp [Pc.outside]
      · have := ow g'; simp only [hl] at this
        simp only [upd_of_ne _ _ e, this]; simp; exact fun h => e h.symm
    · simp only [holderPc, upd_same, held] at ac ⊢
      simpa using ac
    · simp [holderPc]
    · simp [holderPc]
    · simp [holderPc]
  | recv g =>
    simp only [step] at hs
    split at hs
    case isFalse => cases hs
    rename_i hp
    split at hs
    case h_2 => cases hs
    rename_i t hch
    cases hs
    have hne : s.lock ≠ some g := by
      intro e; have := (ow g).2 e; simp [hp] at this
    have hh : holderPc { s with ch := none, pc := upd s.pc g .got } = holderPc s := by
      unfold holderPc
      cases hl : s.lock with
      | none => rfl
      | some g' =>
        have : g' ≠ g := by rintro rfl; exact hne hl
        simp [upd_of_ne _ _ this]
    refine ⟨?_, ?_, ?_, ?_, ?_⟩
    · intro g'
      by_cases e : g' = g
      · subst e; simp [Pc.outside]; exact hne
      · simp only [upd_of_ne _ _ e]; exact ow g'
    · rw [hh]
      simp only [recvs_append, puts_append, recvs_recv, puts_recv, List.append_nil]
      rw [← ac]
      cases holderPc s <;> simp [held, hch]
    · rw [hh]; exact sl
    · rw [hh]; exact ls
    · intro _ _; exact Or.inl ⟨g, by simp⟩
  | next g =>
    simp only [step, stepNext] at hs
    have key : ∀ p, s.pc g = p → p.outside = false → s.lock = some g ∧ holderPc s = p := by
      intro p hp ho
      have hl := (ow g).1 (hp ▸ ho)
      exact ⟨hl, by simp [holderPc, hl, hp]⟩
    have own : ∀ (ch : Option T) (b : List T) (p : Pc T), s.lock = some g → p.outside = false →
        ∀ g', (upd s.pc g p g').outside = false ↔ s.lock = some g' := by
      intro _ _ p hl ho g'
      by_cases e : g' = g
      · subst e; simp [ho, hl]
      · rw [upd_of_ne _ _ e]; exact ow g'
    split at hs
    case h_1 => cases hs
    case h_2 => cases hs
    case h_3 t hp =>
      obtain ⟨hl, hh⟩ := key _ hp rfl
      rw [hh] at ac sl ls wk
      split at hs <;> cases hs
      · rename_i hb
        refine ⟨own none [] _ hl rfl, ?_, ?_, ?_, ?_⟩ <;> simp [holderPc, hl, held] at ac ⊢
        · exact ac
        · exact hb
        · intro h1 h2; exact absurd hb h2
      · rename_i b bs hb
        refine ⟨own none [] _ hl rfl, ?_, ?_, ?_, ?_⟩ <;> simp [holderPc, hl, held] at ac wk ⊢
        · exact ac
        · intro h1; exact got_upd (by simp [hp]) (wk h1 (by simp [hb]))
    case h_4 t hp =>
      obtain ⟨hl, hh⟩ := key _ hp rfl
      rw [hh] at ac sl ls wk
      have hb := sl t rfl
      split at hs <;> cases hs
      · rename_i hc
        refine ⟨own none [] _ hl rfl, ?_, ?_, ?_, ?_⟩ <;> simp [holderPc, hl, held, hb, hc] at ac ⊢
        exact ac
      · rename_i c hc
        refine ⟨own none [] _ hl rfl, ?_, ?_, ?_, ?_⟩ <;> simp [holderPc, hl, held, hb, hc] at ac ⊢
        exact ac
    case h_5 t hp =>
      obtain ⟨hl, hh⟩ := key _ hp rfl
      rw [hh] at ac sl ls wk
      cases hs
      refine ⟨own none [] _ hl rfl, ?_, ?_, ?_, ?_⟩ <;> simp [holderPc, hl, held] at ac wk ⊢
      · exact ac
      · intro h1; exact got_upd (by simp [hp]) (wk h1)
    case h_6 hp =>
      obtain ⟨hl, hh⟩ := key _ hp rfl
      rw [hh] at ac sl ls wk
      split at hs <;> cases hs
      · rename_i hb
        refine ⟨own none [] _ hl rfl, ?_, ?_, ?_, ?_⟩ <;> simp [holderPc, hl, held, hb] at ac ⊢
        exact ac
      · rename_i b bs hb
        refine ⟨own none [] _ hl rfl, ?_, ?_, ?_, ?_⟩ <;> simp [holderPc, hl, held, hb] at ac ⊢
        exact ac
    case h_7 hp =>
      obtain ⟨hl, hh⟩ := key _ hp rfl
      rw [hh] at ac sl ls wk
      split at hs
      · rename_i b bs hc hb
        cases hs
        refine ⟨own none [] _ hl rfl, ?_, ?_, ?_, ?_⟩ <;> simp [holderPc, hl, held, hb, hc] at ac ⊢
        exact ac
      · cases hs
      · rename_i c hc
        cases hs
        refine ⟨own none [] _ hl rfl, ?_, ?_, ?_, ?_⟩ <;> simp [holderPc, hl, held, hc] at ac ⊢
        exact ac
    case h_8 hp =>
      obtain ⟨hl, hh⟩ := key _ hp rfl
      rw [hh] at ac sl ls wk
      cases hs
      refine ⟨own none [] _ hl rfl, ?_, ?_, ?_, ?_⟩ <;> simp [holderPc, hl, held] at ac wk ⊢
      · exact ac
      · intro h1 h2
        refine got_upd (by simp [hp]) (wk h1 ?_)
        intro h3; rw [h3] at h2; exact h2 rfl
    case h_9 hp =>
      obtain ⟨hl, hh⟩ := key _ hp rfl
      rw [hh] at ac sl ls wk
      cases hs
      refine ⟨?_, ?_, ?_, ?_, ?_⟩
      · intro g'
        by_cases e : g' = g
        · subst e; simp [Pc.outside]
        · simp only [upd_of_ne _ _ e]
          simp
          have := ow g'
          rw [hl] at this
          cases h : (s.pc g').outside with
          | true => rfl
          | false => exact absurd (Option.some.inj (this.1 h)).symm e
      all_goals simp [holderPc, held] at ac wk ⊢
      · exact ac
      · intro h1 h2; exact got_upd (by simp [hp]) (wk h1 h2)

theorem run_inv {h : List (Ev T)} {s : St T} (hr : (sys T).Run h s) : Inv h s :=
  Lts.Run.invariant (M := sys T) (P := Inv) inv_init (fun _ _ _ _ _ _ I hs => inv_step I hs) hr

theorem noCall_lock {h : List (Ev T)} {s : St T} (I : Inv h s) (hq : NoCall s) : s.lock = none := by
  cases hl : s.lock with
  | none => rfl
  | some g =>
    have := (I.owner g).2 hl
    rcases hq g with h1 | h1 <;> simp [h1, Pc.outside] at this

/-- One receive followed by a complete `Load`, with a backlog of at least one value. -/
theorem drain_one {s : St T} {g : Nat} {t b : T} {bs : List T} (hp : s.pc g = .idle)
    (hl : s.lock = none) (hc : s.ch = some t) (hb : s.backlog = b :: bs) :
    ∃ s1, (sys T).exec s [.recv g, .load g, .next g, .next g, .next g, .next g] =
      some (s1, [.recv t]) ∧ s1.pc g = .idle ∧ s1.lock = none ∧ s1.ch = some b ∧
      s1.backlog = bs := by
  refine ⟨⟨some b, bs, none, upd (upd (upd (upd (upd (upd s.pc g .got) g .loadCheck) g .loadSelect) g
    .loadDrop) g .unlock) g .idle⟩, ?_, ?_⟩
  · simp [Lts.exec, sys, step, stepNext, hp, hl, hc, hb, Pc.outside]
  · simp

end Braid.Unbounded
