import Verif.DisMutex.Spec

/-
The invariant of the distributed lock.
-/
namespace Braid.DisMutex
open Spec

structure Inv (h : List Ev) (s : State) : Prop where
  /-- values in use have an owner -/
  tryOwner : ∀ c k v i w, s.pc c = .trying k v i w → s.owner v = some c
  wonOwner : ∀ c k v t, s.pc c = .won k v t → s.owner v = some c
  heldOwner : ∀ c k v t n, .locked c k v t n ∈ h → s.owner v = some c
  /-- a value that was not unlocked and whose lease runs is in the store -/
  wonStore : ∀ c k v t, s.pc c = .won k v t → .unlockCall c k v ∉ h → s.now < t + expiry →
    s.store k = some (v, t + expiry)
  heldStore : ∀ c k v t n, .locked c k v t n ∈ h → .unlockCall c k v ∉ h → s.now < t + expiry →
    s.store k = some (v, t + expiry)
  /-- a goroutine in Unlock has called it -/
  unlocking : ∀ c k v, s.pc c = .unlocking k v → .unlockCall c k v ∈ h
  unlockOwner : ∀ c k v, s.pc c = .unlocking k v → s.owner v = some c
  wonTime : ∀ c k v t, s.pc c = .won k v t → t ≤ s.now ∧ ∃ t0, t0 ≤ t ∧ .lockCall c k v t0 ∈ h
  tryTime : ∀ c k v i w, s.pc c = .trying k v i w → ∃ t0, t0 ≤ s.now ∧ .lockCall c k v t0 ∈ h
  heldTime : ∀ c k v t n, .locked c k v t n ∈ h → t ≤ n ∧ n ≤ s.now ∧ ∃ t0, t0 ≤ t ∧ .lockCall c k v t0 ∈ h

theorem inv_init : Inv [] init := by
  constructor <;> simp [init]

theorem live_some {store : String → Option (String × Nat)} {now : Nat} {k v : String}
    (h : live store now k = some v) : ∃ e, store k = some (v, e) ∧ now < e := by
  unfold live at h
  split at h
  · cases h
  · split at h
    · rename_i e hs he; cases h; exact ⟨e, hs, he⟩
    · cases h

theorem live_of {store : String → Option (String × Nat)} {now e : Nat} {k v : String}
    (h : store k = some (v, e)) (he : now < e) : live store now k = some v := by
  simp [live, h, he]

theorem live_none {store : String → Option (String × Nat)} {now : Nat} {k : String}
    (h : live store now k = none) (v : String) (e : Nat) (hs : store k = some (v, e)) : e ≤ now := by
  by_cases he : now < e
  · rw [live_of hs he] at h; cases h
  · omega

/-- The kinds of effect of an attempt. -/
theorem attempt_cases {s s' : State} {c : Nat} {net : Net} {evs : List Ev}
    (hs : step s (.attempt c net) = some (s', evs)) : ∃ k v i w, s.pc c = .trying k v i w ∧ w ≤ s.now ∧
      ((4 ≤ i ∧ s' = { s with pc := upd s.pc c .idle } ∧ evs = [.lockFailed c k v s.now]) ∨
       (i < 4 ∧ live s.store s.now k = none ∧ evs = [.tried c k v s.now .got] ∧
         s' = { s with store := upd s.store k (some (v, s.now + expiry)), pc := upd s.pc c (.won k v s.now) }) ∨
       (i < 4 ∧ live s.store s.now k = none ∧ evs = [.tried c k v s.now .lost] ∧
         s' = { s with store := upd s.store k (some (v, s.now + expiry)),
                       pc := upd s.pc c (.trying k v (i + 1) (s.now + 700)) }) ∨
       (i < 4 ∧ ∃ r, evs = [.tried c k v s.now r] ∧
         (r = .taken ∧ live s.store s.now k ≠ none ∨ r = .noReply) ∧
         s' = { s with pc := upd s.pc c (.trying k v (i + 1) (s.now + 700)) })) := by
  simp only [step] at hs
  split at hs
  · rename_i k v i w hpc
    refine ⟨k, v, i, w, hpc, ?_⟩
    split at hs
    · cases hs
    · refine ⟨by omega, ?_⟩
      split at hs
      next ht => cases hs; exact .inl ⟨ht, rfl, rfl⟩
      next ht =>
        have ht' : i < 4 := Nat.lt_of_not_le ht
        cases hl : live s.store s.now k with
        | none =>
          rw [hl] at hs
          cases net <;> simp only [Option.some.injEq, Prod.mk.injEq] at hs <;> obtain ⟨rfl, rfl⟩ := hs
          · exact .inr (.inl ⟨ht', rfl, rfl, rfl⟩)
          · exact .inr (.inr (.inl ⟨ht', rfl, rfl, rfl⟩))
          · exact .inr (.inr (.inr ⟨ht', _, rfl, .inr rfl, rfl⟩))
        | some v' =>
          rw [hl] at hs
          cases net <;> simp only [Option.some.injEq, Prod.mk.injEq] at hs <;> obtain ⟨rfl, rfl⟩ := hs
          · exact .inr (.inr (.inr ⟨ht', _, rfl, .inl ⟨rfl, by simp⟩, rfl⟩))
          · exact .inr (.inr (.inr ⟨ht', _, rfl, .inr rfl, rfl⟩))
          · exact .inr (.inr (.inr ⟨ht', _, rfl, .inr rfl, rfl⟩))
  · cases hs

theorem script_cases {s s' : State} {c : Nat} {net : Net} {evs : List Ev}
    (hs : step s (.script c net) = some (s', evs)) : ∃ k v b, s.pc c = .unlocking k v ∧
      evs = [.unlocked c k v b] ∧
      ((s' = { s with pc := upd s.pc c .idle } ∧ b = false) ∨
       (live s.store s.now k = some v ∧
         s' = { s with store := upd s.store k none, pc := upd s.pc c .idle })) := by
  simp only [step] at hs
  split at hs
  · rename_i k v hpc
    simp only [Option.some.injEq, Prod.mk.injEq] at hs
    refine ⟨k, v, _, hpc, hs.2.symm, ?_⟩
    by_cases hm : live s.store s.now k = some v ∧ net ≠ .failed
    · rw [if_pos hm] at hs; exact .inr ⟨hm.1, hs.1.symm⟩
    · rw [if_neg hm] at hs
      refine .inl ⟨hs.1.symm, decide_eq_false fun hx => hm ⟨hx.1, ?_⟩⟩
      rw [hx.2]; decide
  · cases hs

set_option maxHeartbeats 4000000 in
theorem inv_step {h : List Ev} {s s' : State} {a : Act} {evs : List Ev} (hi : Inv h s)
    (hs : step s a = some (s', evs)) : Inv (h ++ evs) s' := by
  obtain ⟨i1, i2, i3, i4, i5, i6, i7, i8, i9, i10⟩ := hi
  cases a with
  | tick d =>
    simp only [step, Option.some.injEq, Prod.mk.injEq] at hs
    obtain ⟨rfl, rfl⟩ := hs
    constructor <;> simp only [List.append_nil] <;> grind
  | lock c key value =>
    simp only [step] at hs
    repeat' split at hs
    · cases hs
    · cases hs; constructor <;> grind
    · cases hs
    · simp only [Option.some.injEq, Prod.mk.injEq] at hs
      obtain ⟨rfl, rfl⟩ := hs
      constructor <;> grind [upd_apply]
  | attempt c net =>
    obtain ⟨k, v, i, w, hpc, hw, h1 | ⟨-, hf, he, h1⟩ | ⟨-, hf, he, h1⟩ | ⟨-, r, he, -, h1⟩⟩ := attempt_cases hs
    · obtain ⟨-, rfl, rfl⟩ := h1; constructor <;> grind [upd_apply]
    · have hf' := live_none hf
      clear hs hf
      subst h1; subst he
      constructor <;> grind [upd_apply]
    · have hf' := live_none hf
      clear hs hf
      subst h1; subst he
      constructor <;> grind [upd_apply]
    · subst h1; subst he; constructor <;> grind [upd_apply]
  | ret c =>
    simp only [step] at hs
    split at hs
    · simp only [Option.some.injEq, Prod.mk.injEq] at hs
      obtain ⟨rfl, rfl⟩ := hs
      constructor <;> grind [upd_apply]
    · cases hs
  | unlock c key value =>
    simp only [step] at hs
    repeat' split at hs
    · cases hs
    · cases hs; constructor <;> grind
    · cases hs
    · simp only [Option.some.injEq, Prod.mk.injEq] at hs
      obtain ⟨rfl, rfl⟩ := hs
      constructor <;> grind [upd_apply]
  | script c net =>
    obtain ⟨k, v, b, hpc, rfl, ⟨h1, -⟩ | ⟨hl, h1⟩⟩ := script_cases hs
    · subst h1; constructor <;> grind [upd_apply]
    · obtain ⟨e, hst, he⟩ := live_some hl
      subst h1; constructor <;> grind [upd_apply]

theorem inv_run {h : List Ev} {s : State} (hr : sys.Run h s) : Inv h s :=
  hr.invariant inv_init fun _ _ _ _ _ _ hi hs => inv_step hi hs

end Braid.DisMutex
