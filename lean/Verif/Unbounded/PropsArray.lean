import Verif.Unbounded.Array
import Verif.Unbounded.Props

/-
C133, the backlog of an unbounded buffer: what `Load` took out of the backlog is not kept alive by the array.
-/
namespace Braid.Unbounded
variable {T : Type}

/-- C133. Outside of the slice every slot of the array is `nil`, in every run. -/
theorem C133_slots {h : List (Ev T)} {a : StA T} (hr : (sysA T).Run h a) {i : Nat} {t : T}
    (ht : a.arr.slots[i]? = some (some t)) : a.arr.off ≤ i ∧ i < a.arr.off + a.arr.len := by
  obtain ⟨_, h1, r, h2⟩ := abs_run hr
  rw [h2] at ht
  constructor
  · rcases Nat.lt_or_ge i a.arr.off with h | h
    · rw [List.getElem?_append_left (by simpa using h)] at ht
      simp [List.getElem?_replicate] at ht
    · exact h
  · rcases Nat.lt_or_ge i (a.arr.off + a.arr.len) with h | h
    · exact h
    · rw [List.getElem?_append_right (by simp; omega), List.getElem?_append_right (by simp; omega)] at ht
      simp [List.getElem?_replicate] at ht

/-- C133. When no `Put` or `Load` is in progress, the values that the array keeps are exactly those that were put and are
neither received nor in the channel, each as often. -/
theorem C133_backlog {h : List (Ev T)} {a : StA T} (hr : (sysA T).Run h a) (hq : ∀ g, a.pc g = .idle ∨ a.pc g = .got) :
    puts h = recvs h ++ a.ch.toList ++ a.arr.kept :=
  C05_no_loss (abs_run hr).1 hq

/-- C133. The buffer made of a slice does what the buffer made of a list does: the history is one of that buffer, and so
C05 and C06 hold for it. -/
theorem C133_refines {h : List (Ev T)} {a : StA T} (hr : (sysA T).Run h a) :
    ∃ s, (sys T).Run h s ∧ s.ch = a.ch ∧ s.lock = a.lock ∧ s.pc = a.pc ∧ s.backlog.length = a.arr.len :=
  ⟨a.abs, (abs_run hr).1, rfl, rfl, rfl, (abs_run hr).2.1.symm⟩

/-- C133. Nor does it stop: a goroutine inside `Put` or `Load` finds its slot and can go on, whatever capacity is chosen. -/
theorem C133_goes_on {h : List (Ev T)} {a : StA T} (hr : (sysA T).Run h a) {g : Nat} (hg : (a.pc g).outside = false)
    (cap : Nat) : ((sysA T).step a (.next g cap)).isSome := by
  obtain ⟨h1, h2⟩ := abs_run hr
  have I := run_inv h1
  change (stepNextA a g cap).isSome
  unfold stepNextA
  cases hp : a.pc g with
  | idle => rw [hp] at hg; cases hg
  | got => rw [hp] at hg; cases hg
  | putCheck t => dsimp only; split <;> rfl
  | putSelect t => cases a.ch <;> rfl
  | putAppend t => rfl
  | loadCheck => dsimp only; split <;> rfl
  | loadDrop => rfl
  | unlock => rfl
  | loadSelect =>
    have hl : a.lock = some g := (I.owner g).1 hg
    have hne : a.arr.kept ≠ [] := I.lsel (by simp [holderPc, StA.abs, hl, hp])
    cases hk : a.arr.kept with
    | nil => exact absurd hk hne
    | cons b l =>
      rw [hk] at h2
      rw [rep_get h2]
      cases a.ch <;> rfl

/-- Three values are put, one is received and one is loaded: the array keeps the third one only. -/
example : ∃ h a, (sysA Nat).Run h a ∧ (∀ g, a.pc g = .idle ∨ a.pc g = .got) ∧ puts h = [7, 8, 9] ∧ recvs h = [7] ∧
    a.ch = some 8 ∧ a.arr.slots = [none, some 9, none] ∧ a.arr.kept = [9] := by
  refine ⟨_, _, Lts.run_of_exec (M := sysA Nat) (as := [.put 0 7, .next 0 0, .next 0 0, .next 0 0, .put 0 8, .next 0 0,
    .next 0 0, .next 0 3, .next 0 0, .put 0 9, .next 0 0, .next 0 0, .next 0 0, .recv 1, .load 1, .next 1 0, .next 1 0,
    .next 1 0, .next 1 0]) rfl, ?_, rfl, rfl, rfl, rfl, rfl⟩
  intro g
  by_cases h0 : g = 0
  · subst h0; exact .inl rfl
  · by_cases h1 : g = 1
    · subst h1; exact .inl rfl
    · left; simp [upd_apply, h0, h1, sysA, initA]

end Braid.Unbounded
