import Verif.DisMutex.Inv

/-
The invariant of the attempts of `Lock`.
-/
namespace Braid.DisMutex
open Spec

theorem attempts_append (v : String) : ∀ h1 h2, attempts v (h1 ++ h2) = attempts v h1 ++ attempts v h2
  | [], _ => rfl
  | e :: h1, h2 => by
    cases e <;> simp only [List.cons_append, attempts, attempts_append v h1 h2]
    split <;> simp

theorem spaced_concat : ∀ (l : List Nat) (t : Nat), Spaced l → (∀ x ∈ l, x + 700 ≤ t) → Spaced (l ++ [t])
  | [], _, _, _ => trivial
  | [a], t, _, h => ⟨h a (by simp), trivial⟩
  | a :: b :: l, t, hs, h => ⟨hs.1, spaced_concat (b :: l) t hs.2 fun x hx => h x (List.mem_cons_of_mem _ hx)⟩

/-- A list of attempts made since `t0`, `i` of them, each with the pause after it, up to `w`. -/
structure Going (l : List (Nat × Tried)) (i t0 w : Nat) : Prop where
  len : l.length = i
  spaced : Spaced (l.map Prod.fst)
  none : ∀ p ∈ l, p.2 ≠ .got
  start : ∀ p ∈ l, t0 ≤ p.1
  pause : ∀ p ∈ l, p.1 + 700 ≤ w
  total : t0 + 700 * i ≤ w

theorem going_next {l : List (Nat × Tried)} {i t0 w t : Nat} {r : Tried} (hg : Going l i t0 w) (hw : w ≤ t)
    (hr : r ≠ .got) : Going (l ++ [(t, r)]) (i + 1) t0 (t + 700) := by
  obtain ⟨h1, h2, h3, h4, h5, h6⟩ := hg
  refine ⟨by simp [h1], ?_, ?_, ?_, ?_, by omega⟩
  · rw [List.map_append]
    refine spaced_concat _ _ h2 fun x hx => ?_
    obtain ⟨p, hp, rfl⟩ := List.mem_map.1 hx
    exact Nat.le_trans (h5 p hp) hw
  · intro p hp
    rcases List.mem_append.1 hp with hp | hp
    · exact h3 p hp
    · simp only [List.mem_singleton] at hp; subst hp; exact hr
  · intro p hp
    rcases List.mem_append.1 hp with hp | hp
    · exact h4 p hp
    · simp only [List.mem_singleton] at hp; subst hp; show t0 ≤ t; omega
  · intro p hp
    rcases List.mem_append.1 hp with hp | hp
    · have := h5 p hp; omega
    · simp only [List.mem_singleton] at hp; subst hp; show t + 700 ≤ t + 700; omega

structure Inv2 (h : List Ev) (s : State) : Prop where
  fresh : ∀ v, s.owner v = none → attempts v h = []
  trying : ∀ c k v i w, s.pc c = .trying k v i w → s.owner v = some c ∧ k ≠ "" ∧ v ≠ "" ∧
    ∃ t0, .lockCall c k v t0 ∈ h ∧ Going (attempts v h) i t0 w
  failed : ∀ c k v n, .lockFailed c k v n ∈ h → k = "" ∨
    ((∀ c' k' i w, s.pc c' ≠ .trying k' v i w) ∧ s.owner v ≠ none ∧
      ∃ t0 w, .lockCall c k v t0 ∈ h ∧ Going (attempts v h) 4 t0 w ∧ w ≤ n)
  store : ∀ k v e, s.store k = some (v, e) → ∃ c t r, .tried c k v t r ∈ h ∧ (r = .got ∨ r = .lost) ∧ e = t + 10000 ∧
    s.owner v = some c ∧ .unlocked c k v true ∉ h
  unlocking : ∀ c k v, s.pc c = .unlocking k v → s.owner v = some c
  unlocked : ∀ c k v, .unlocked c k v true ∈ h → s.owner v = some c ∧ ∀ c' k' i w, s.pc c' ≠ .trying k' v i w
  most : ∀ c k v i w, s.pc c = .trying k v i w → i ≤ 4

theorem inv2_init : Inv2 [] init := by
  constructor <;> simp [init, attempts]

theorem attempts_none {v : String} {evs : List Ev} (h : ∀ c k t r, .tried c k v t r ∉ evs) : attempts v evs = [] := by
  induction evs with
  | nil => rfl
  | cons e l ih =>
    have hl := ih fun c k t r hx => h c k t r (List.mem_cons_of_mem _ hx)
    cases e <;> simp only [attempts, hl]
    rename_i c k v' t r
    rw [if_neg]
    rintro rfl
    exact h c k t r (by simp)

/-- A step without attempts. -/
theorem attempts_same {v : String} {h evs : List Ev} (he : ∀ c k t r, .tried c k v t r ∉ evs) :
    attempts v (h ++ evs) = attempts v h := by
  rw [attempts_append, attempts_none he, List.append_nil]

set_option maxHeartbeats 4000000 in
theorem inv2_step {h : List Ev} {s s' : State} {a : Act} {evs : List Ev} (hi : Inv2 h s)
    (hs : step s a = some (s', evs)) : Inv2 (h ++ evs) s' := by
  obtain ⟨i1, i2, i3, i4, i5, i6, i7⟩ := hi
  cases a with
  | tick d =>
    simp only [step, Option.some.injEq, Prod.mk.injEq] at hs
    obtain ⟨rfl, rfl⟩ := hs
    rw [List.append_nil]
    exact ⟨i1, i2, i3, i4, i5, i6, i7⟩
  | lock c key value =>
    simp only [step] at hs
    repeat' split at hs
    · cases hs
    · cases hs
      have he : ∀ v, attempts v (h ++ [.lockFailed c key "" s.now]) = attempts v h := fun v => attempts_same (by simp)
      constructor <;> (try simp only [he]) <;> grind
    · cases hs
    · simp only [Option.some.injEq, Prod.mk.injEq] at hs
      obtain ⟨rfl, rfl⟩ := hs
      have he : ∀ v, attempts v (h ++ [.lockCall c key value s.now]) = attempts v h := fun v => attempts_same (by simp)
      have hg : Going [] 0 s.now s.now := ⟨rfl, trivial, by simp, by simp, by simp, by omega⟩
      constructor <;> (try simp only [he]) <;> grind [upd_apply]
  | attempt c net =>
    obtain ⟨k, v, i, w, hpc, hw, ⟨h4, h1, he⟩ | ⟨h4, hf, he, h1⟩ | ⟨h4, hf, he, h1⟩ |
      ⟨h4, r, he, hr, h1⟩⟩ :=
      attempt_cases hs
    · subst h1; subst he
      have he : ∀ v', attempts v' (h ++ [.lockFailed c k v s.now]) = attempts v' h := fun v' => attempts_same (by simp)
      obtain ⟨o1, o2, o3, t0, hc0, hg⟩ := i2 c k v i w hpc
      have hi4 : i = 4 := by
        have := i7 c k v i w hpc
        omega
      subst hi4
      constructor <;> (try simp only [he]) <;> grind [upd_apply]
    · subst h1; subst he
      obtain ⟨o1, o2, o3, t0, hc0, hg⟩ := i2 c k v i w hpc
      have he : ∀ v', v' ≠ v → attempts v' (h ++ [.tried c k v s.now .got]) = attempts v' h :=
        fun v' hv => attempts_same (by simp [hv])
      have hne : ∀ c' k' v' i' w', c' ≠ c → s.pc c' = .trying k' v' i' w' → v' ≠ v := by
        rintro c' k' _ i' w' hcc hp rfl
        exact hcc (by simpa [o1] using (i2 c' k' _ i' w' hp).1.symm)
      have hfl : ∀ c' k' v' n, .lockFailed c' k' v' n ∈ h → k' = "" ∨ v' ≠ v := by
        intro c' k' v' n hm
        rcases i3 c' k' v' n hm with hk | ⟨hp, -⟩
        · exact .inl hk
        · right; rintro rfl; exact hp c k i w hpc
      have htr : ∀ c' k' v' i' w', c' ≠ c → s.pc c' = .trying k' v' i' w' → s.owner v' = some c' ∧ k' ≠ "" ∧ v' ≠ "" ∧
          ∃ t0, .lockCall c' k' v' t0 ∈ h ∧ Going (attempts v' (h ++ [.tried c k v s.now .got])) i' t0 w' := by
        intro c' k' v' i' w' hcc hp
        rw [he v' (hne _ _ _ _ _ hcc hp)]
        exact i2 c' k' v' i' w' hp
      have hfa : ∀ c' k' v' n, .lockFailed c' k' v' n ∈ h → k' = "" ∨
          (v' ≠ v ∧ (∀ c' k' i w, s.pc c' ≠ .trying k' v' i w) ∧ s.owner v' ≠ none ∧
            ∃ t0 w, .lockCall c' k' v' t0 ∈ h ∧ Going (attempts v' (h ++ [.tried c k v s.now .got])) 4 t0 w ∧ w ≤ n) := by
        intro c' k' v' n hm
        rcases hfl c' k' v' n hm with hk | hv
        · exact .inl hk
        · rw [he v' hv]
          rcases i3 c' k' v' n hm with hk | hx
          · exact .inl hk
          · exact .inr ⟨hv, hx⟩
      clear i2 i3
      constructor <;> grind [upd_apply, expiry]
    · subst h1; subst he
      obtain ⟨o1, o2, o3, t0, hc0, hg⟩ := i2 c k v i w hpc
      have he : ∀ v', v' ≠ v → attempts v' (h ++ [.tried c k v s.now .lost]) = attempts v' h :=
        fun v' hv => attempts_same (by simp [hv])
      have hne : ∀ c' k' v' i' w', c' ≠ c → s.pc c' = .trying k' v' i' w' → v' ≠ v := by
        rintro c' k' _ i' w' hcc hp rfl
        exact hcc (by simpa [o1] using (i2 c' k' _ i' w' hp).1.symm)
      have hfl : ∀ c' k' v' n, .lockFailed c' k' v' n ∈ h → k' = "" ∨ v' ≠ v := by
        intro c' k' v' n hm
        rcases i3 c' k' v' n hm with hk | ⟨hp, -⟩
        · exact .inl hk
        · right; rintro rfl; exact hp c k i w hpc
      have htr : ∀ c' k' v' i' w', c' ≠ c → s.pc c' = .trying k' v' i' w' → s.owner v' = some c' ∧ k' ≠ "" ∧ v' ≠ "" ∧
          ∃ t0, .lockCall c' k' v' t0 ∈ h ∧ Going (attempts v' (h ++ [.tried c k v s.now .lost])) i' t0 w' := by
        intro c' k' v' i' w' hcc hp
        rw [he v' (hne _ _ _ _ _ hcc hp)]
        exact i2 c' k' v' i' w' hp
      have hfa : ∀ c' k' v' n, .lockFailed c' k' v' n ∈ h → k' = "" ∨
          (v' ≠ v ∧ (∀ c' k' i w, s.pc c' ≠ .trying k' v' i w) ∧ s.owner v' ≠ none ∧
            ∃ t0 w, .lockCall c' k' v' t0 ∈ h ∧ Going (attempts v' (h ++ [.tried c k v s.now .lost])) 4 t0 w ∧ w ≤ n) := by
        intro c' k' v' n hm
        rcases hfl c' k' v' n hm with hk | hv
        · exact .inl hk
        · rw [he v' hv]
          rcases i3 c' k' v' n hm with hk | hx
          · exact .inl hk
          · exact .inr ⟨hv, hx⟩
      have hg' : Going (attempts v (h ++ [.tried c k v s.now .lost])) (i + 1) t0 (s.now + 700) := by
        rw [attempts_append]; simp only [attempts, if_pos]; exact going_next hg hw (by decide)
      clear i2 i3
      constructor <;> grind [upd_apply, expiry]
    · subst h1; subst he
      obtain ⟨o1, o2, o3, t0, hc0, hg⟩ := i2 c k v i w hpc
      have he : ∀ v', v' ≠ v → attempts v' (h ++ [.tried c k v s.now r]) = attempts v' h :=
        fun v' hv => attempts_same (by simp [hv])
      have hne : ∀ c' k' v' i' w', c' ≠ c → s.pc c' = .trying k' v' i' w' → v' ≠ v := by
        rintro c' k' _ i' w' hcc hp rfl
        exact hcc (by simpa [o1] using (i2 c' k' _ i' w' hp).1.symm)
      have hfl : ∀ c' k' v' n, .lockFailed c' k' v' n ∈ h → k' = "" ∨ v' ≠ v := by
        intro c' k' v' n hm
        rcases i3 c' k' v' n hm with hk | ⟨hp, -⟩
        · exact .inl hk
        · right; rintro rfl; exact hp c k i w hpc
      have htr : ∀ c' k' v' i' w', c' ≠ c → s.pc c' = .trying k' v' i' w' → s.owner v' = some c' ∧ k' ≠ "" ∧ v' ≠ "" ∧
          ∃ t0, .lockCall c' k' v' t0 ∈ h ∧ Going (attempts v' (h ++ [.tried c k v s.now r])) i' t0 w' := by
        intro c' k' v' i' w' hcc hp
        rw [he v' (hne _ _ _ _ _ hcc hp)]
        exact i2 c' k' v' i' w' hp
      have hfa : ∀ c' k' v' n, .lockFailed c' k' v' n ∈ h → k' = "" ∨
          (v' ≠ v ∧ (∀ c' k' i w, s.pc c' ≠ .trying k' v' i w) ∧ s.owner v' ≠ none ∧
            ∃ t0 w, .lockCall c' k' v' t0 ∈ h ∧ Going (attempts v' (h ++ [.tried c k v s.now r])) 4 t0 w ∧ w ≤ n) := by
        intro c' k' v' n hm
        rcases hfl c' k' v' n hm with hk | hv
        · exact .inl hk
        · rw [he v' hv]
          rcases i3 c' k' v' n hm with hk | hx
          · exact .inl hk
          · exact .inr ⟨hv, hx⟩
      have hg' : Going (attempts v (h ++ [.tried c k v s.now r])) (i + 1) t0 (s.now + 700) := by
        rw [attempts_append]; simp only [attempts, if_pos]
        exact going_next hg hw (by rcases hr with ⟨rfl, -⟩ | rfl <;> decide)
      clear hr i2 i3
      constructor <;> grind [upd_apply]
  | ret c =>
    simp only [step] at hs
    split at hs
    · simp only [Option.some.injEq, Prod.mk.injEq] at hs
      obtain ⟨rfl, rfl⟩ := hs
      rename_i k v t hpc
      have he : ∀ v', attempts v' (h ++ [.locked c k v t s.now]) = attempts v' h := fun v' => attempts_same (by simp)
      constructor <;> (try simp only [he]) <;> grind [upd_apply]
    · cases hs
  | unlock c key value =>
    simp only [step] at hs
    repeat' split at hs
    · cases hs
    · cases hs
      have he : ∀ v', attempts v' (h ++ [.unlocked c key value false]) = attempts v' h := fun v' => attempts_same (by simp)
      constructor <;> (try simp only [he]) <;> grind
    · cases hs
    · simp only [Option.some.injEq, Prod.mk.injEq] at hs
      obtain ⟨rfl, rfl⟩ := hs
      have he : ∀ v', attempts v' (h ++ [.unlockCall c key value]) = attempts v' h := fun v' => attempts_same (by simp)
      constructor <;> (try simp only [he]) <;> grind [upd_apply]
  | script c net =>
    obtain ⟨k, v, b, hpc, rfl, ⟨h1, hb⟩ | ⟨hl, h1⟩⟩ := script_cases hs
    · have he : ∀ v', attempts v' (h ++ [.unlocked c k v b]) = attempts v' h := fun v' => attempts_same (by simp)
      subst h1; constructor <;> (try simp only [he]) <;> grind [upd_apply]
    · have he : ∀ v', attempts v' (h ++ [.unlocked c k v b]) = attempts v' h := fun v' => attempts_same (by simp)
      subst h1; constructor <;> (try simp only [he]) <;> grind [upd_apply]

theorem inv2_run {h : List Ev} {s : State} (hr : sys.Run h s) : Inv2 h s :=
  hr.invariant inv2_init fun _ _ _ _ _ _ hi hs => inv2_step hi hs

end Braid.DisMutex
