import Verif.Timer.Lemmas

/-
The schedule of an undisturbed timer, on a fast machine and in general.
-/
namespace Braid.Timer
open Spec

/-- On a fast machine: the ticks so far are `0 .. m-1`, each queued when it was due. -/
def OnTime (F I D : Int) (l : List Int) (now : Int) (x : T) : Prop :=
  ∃ m : Nat, l = (List.range m).map (at_ F I) ∧ (m = 0 ∨ at_ F I (m - 1) ≤ now) ∧ x.interval = I ∧
  match x.g, x.ticker with
  | .due a, none => a = F ∧ m = 0 ∧ now ≤ a ∧ 0 < D
  | .first, none => m = 0 ∧ now = F ∧ 0 < D
  | .mk, none => now + I = at_ F I m
  | .sel, some k => k.running = true ∧ k.period = I ∧
      ((k.chan = false ∧ k.next = at_ F I m ∧ now ≤ k.next) ∨
       (k.chan = true ∧ k.next = at_ F I (m + 1) ∧ now = at_ F I m))
  | .send, some k => k.running = true ∧ k.period = I ∧ k.chan = false ∧ k.next = at_ F I (m + 1) ∧
      now = at_ F I m
  | _, _ => False

/-- In general: tick number `i` is not queued before it is due. -/
def NotEarly (F I D : Int) (l : List Int) (now : Int) (x : T) : Prop :=
  (∀ i v, l[i]? = some v → at_ F I i ≤ v) ∧ x.interval = I ∧
  match x.g, x.ticker with
  | .due a, none => a = F ∧ l = [] ∧ 0 < D
  | .first, none => l = [] ∧ F ≤ now ∧ 0 < D
  | .mk, none => at_ F I l.length ≤ now + I
  | .sel, some k => k.period = I ∧
      ((k.chan = false ∧ at_ F I l.length ≤ k.next) ∨
       (k.chan = true ∧ at_ F I (l.length + 1) ≤ k.next ∧ at_ F I l.length ≤ now))
  | .send, some k => k.period = I ∧ at_ F I l.length ≤ now ∧
      ((k.chan = false ∧ at_ F I (l.length + 1) ≤ k.next) ∨
       (k.chan = true ∧ at_ F I (l.length + 2) ≤ k.next ∧ at_ F I (l.length + 1) ≤ now))
  | _, _ => False

/-- The first tick: after the due time, or (as the code has it) after the interval if that is 0. -/
def first (t0 D I : Int) : Int := if 0 < D then t0 + D else t0 + I

theorem onTime_new {t0 D I z : Int} :
    OnTime (first t0 D I) I D [] t0 ⟨I, true, none, if D > 0 then .due (t0 + D) else .mk, z⟩ := by
  refine ⟨0, rfl, .inl rfl, rfl, ?_⟩
  by_cases hD : 0 < D
  · simp [hD, first]; omega
  · simp [hD, first, at_zero]

theorem onTime_pass {F I D : Int} {l : List Int} {s : State} {t : Nat}
    (h : OnTime F I D l s.now (s.tm t)) (hidle : Idle s) (hc : s.crashed = false) :
    OnTime F I D l (s.now + 1) (s.tm t) := by
  obtain ⟨m, h1, h2, h3, h4⟩ := h
  have g1 := hidle.1 (.g t false) trivial
  have g2 := hidle.1 (.fire t) trivial
  have g3 := hidle.2
  refine ⟨m, h1, by omega, h3, ?_⟩
  cases hg : (s.tm t).g <;> cases hk : (s.tm t).ticker <;> rw [hg, hk] at h4 <;>
    simp [step, stepG, hc, hg, hk, g3] at g1 g2 h4 ⊢
  · refine ⟨h4.1, h4.2.1, ?_, h4.2.2.2⟩; omega
  · split at g1 <;> simp at g1
  · grind

theorem onTime_g {F I D : Int} {l : List Int} {s s' : State} {t : Nat} {b : Bool} {evs : List Ev}
    (hI : 0 < I) (h : OnTime F I D l s.now (s.tm t)) (hsh : s.shutdown = false)
    (hs : stepG s t b = some (s', evs)) : OnTime F I D (l ++ times t evs) s'.now (s'.tm t) := by
  obtain ⟨m, h1, h2, h3, h4⟩ := h
  have app : ∀ v, v = at_ F I m → l ++ [v] = (List.range (m + 1)).map (at_ F I) := by
    rintro v rfl; simp [List.range_succ, h1]
  simp only [stepG] at hs
  cases hg : (s.tm t).g <;> cases hk : (s.tm t).ticker <;> rw [hg, hk] at h4 <;>
    simp [hg, hk, hsh] at hs h4
  · -- due
    obtain ⟨hle, rfl, rfl⟩ := hs
    refine ⟨m, by simp [h1, times], h2, by simp [setT, h3], ?_⟩
    simp [setT, hk]; omega
  · -- first
    obtain ⟨hle, rfl, rfl⟩ := hs
    refine ⟨m + 1, ?_, ?_, by simp [setT, h3], ?_⟩
    · rw [times_queued]; simp only [if_pos rfl, setT]; apply app; rw [h4.1, at_zero, h4.2.1]
    · right; simp [setT]; rw [h4.1, at_zero]; omega
    · simp [setT, hk, at_succ]; rw [h4.1, at_zero]; omega
  · -- mk
    split at hs
    · omega
    · cases hs
      refine ⟨m, by simp [h1, times], h2, by simp [setT, h3], ?_⟩
      simp [setT, h3]
      omega
  · -- sel
    obtain ⟨-, hch, rfl, rfl⟩ := hs
    refine ⟨m, by simp [h1, times], h2, by simp [setT, h3], ?_⟩
    simp [setT]
    grind
  · -- send
    obtain ⟨hle, rfl, rfl⟩ := hs
    refine ⟨m + 1, ?_, ?_, by simp [setT, h3], ?_⟩
    · rw [times_queued]; simp only [if_pos rfl, setT]; exact app _ h4.2.2.2.2
    · right; simp [setT]; omega
    · simp [setT, hk, at_succ] at h4 ⊢; grind

theorem onTime_fire {F I D : Int} {l : List Int} {s : State} {t : Nat} {k : Tick}
    (hI : 0 < I) (h : OnTime F I D l s.now (s.tm t)) (hk : (s.tm t).ticker = some k)
    (hn : k.next ≤ s.now) : OnTime F I D l s.now
      { s.tm t with ticker := some { k with next := k.next + k.period, chan := true } } := by
  obtain ⟨m, h1, h2, h3, h4⟩ := h
  refine ⟨m, h1, h2, h3, ?_⟩
  cases hg : (s.tm t).g <;> rw [hg, hk] at h4 <;> simp at h4 ⊢
  · simp [at_succ] at h4 ⊢; grind
  · simp [at_succ] at h4 ⊢; omega

theorem notEarly_new {t0 D I z : Int} :
    NotEarly (first t0 D I) I D [] t0 ⟨I, true, none, if D > 0 then .due (t0 + D) else .mk, z⟩ := by
  refine ⟨by simp, rfl, ?_⟩
  by_cases hD : 0 < D
  · simp [hD, first]
  · simp [hD, first, at_zero]

theorem notEarly_pass {F I D : Int} {l : List Int} {now : Int} {x : T}
    (h : NotEarly F I D l now x) : NotEarly F I D l (now + 1) x := by
  obtain ⟨h1, h3, h4⟩ := h
  refine ⟨h1, h3, ?_⟩
  cases hg : x.g <;> cases hk : x.ticker <;> rw [hg, hk] at h4 <;> simp at h4 ⊢ <;> grind

theorem early_app {F I : Int} {l : List Int} {v : Int} (h1 : ∀ i v, l[i]? = some v → at_ F I i ≤ v)
    (hv : at_ F I l.length ≤ v) : ∀ i w, (l ++ [v])[i]? = some w → at_ F I i ≤ w := by
  intro i w hw
  rw [List.getElem?_append] at hw
  split at hw
  · exact h1 i w hw
  · by_cases hi : i = l.length
    · subst hi; simp at hw; omega
    · rw [List.getElem?_eq_none (by simp; omega)] at hw; cases hw

theorem notEarly_g {F I D : Int} {l : List Int} {s s' : State} {t : Nat} {b : Bool} {evs : List Ev}
    (hI : 0 < I) (h : NotEarly F I D l s.now (s.tm t)) (hsh : s.shutdown = false)
    (hs : stepG s t b = some (s', evs)) : NotEarly F I D (l ++ times t evs) s'.now (s'.tm t) := by
  obtain ⟨h1, h3, h4⟩ := h
  simp only [stepG] at hs
  cases hg : (s.tm t).g <;> cases hk : (s.tm t).ticker <;> rw [hg, hk] at h4 <;>
    simp [hg, hk, hsh] at hs h4
  · obtain ⟨hle, rfl, rfl⟩ := hs
    refine ⟨by simpa [times] using h1, by simp [setT, h3], ?_⟩
    simp [setT, hk, times]; exact ⟨h4.2.1, by omega, h4.2.2⟩
  · obtain ⟨hle, rfl, rfl⟩ := hs
    rw [times_queued, if_pos rfl]
    refine ⟨early_app h1 (by rw [h4.1]; simp [at_zero]; omega), by simp [setT, h3], ?_⟩
    simp [setT, hk, at_succ, h4.1, at_zero]; omega
  · split at hs
    · omega
    · cases hs
      refine ⟨by simpa [times] using h1, by simp [setT, h3], ?_⟩
      simp [setT, h3, times]
      omega
  · obtain ⟨-, hch, rfl, rfl⟩ := hs
    refine ⟨by simpa [times] using h1, by simp [setT, h3], ?_⟩
    simp [setT, times]
    grind
  · obtain ⟨hle, rfl, rfl⟩ := hs
    rw [times_queued, if_pos rfl]
    refine ⟨early_app h1 (by omega), by simp [setT, h3], ?_⟩
    simp [setT, hk, at_succ] at h4 ⊢; grind

theorem notEarly_fire {F I D : Int} {l : List Int} {s : State} {t : Nat} {k : Tick}
    (hI : 0 < I) (h : NotEarly F I D l s.now (s.tm t)) (hk : (s.tm t).ticker = some k)
    (hn : k.next ≤ s.now) : NotEarly F I D l s.now
      { s.tm t with ticker := some { k with next := k.next + k.period, chan := true } } := by
  obtain ⟨h1, h3, h4⟩ := h
  refine ⟨h1, h3, ?_⟩
  cases hg : (s.tm t).g <;> rw [hg, hk] at h4 <;> simp at h4 ⊢
  · simp [at_succ] at h4 ⊢; grind
  · simp [at_succ] at h4 ⊢; grind

theorem untouched_left {t : Nat} {h evs : List Ev} (hu : Untouched t (h ++ evs)) : Untouched t h := by
  obtain ⟨h1, h2, h3⟩ := hu
  simp only [List.mem_append, not_or] at h1 h2 h3
  exact ⟨fun u => (h1 u).1, fun u d => (h2 u d).1, h3.1⟩

/-- A step leaves an undisturbed timer alone, or is one of the five that concern it. -/
theorem step_frame {h : List Ev} {s s' : State} {a : Act} {evs : List Ev} {t : Nat} (ha : InvA h s)
    (hu : Untouched t (h ++ evs)) (ht : t < s.n) (hs : step s a = some (s', evs)) :
    s.shutdown = false ∧
    ((s'.tm t = s.tm t ∧ times t evs = [] ∧ (s'.now = s.now ∨ (a = .pass ∧ s'.now = s.now + 1))) ∨
     (∃ b, stepG s t b = some (s', evs)) ∨
     (∃ k, (s.tm t).ticker = some k ∧ k.next ≤ s.now ∧ s'.now = s.now ∧ times t evs = [] ∧
        s'.tm t = { s.tm t with ticker := some { k with next := k.next + k.period, chan := true } })) := by
  have hu' := (untouched_left hu)
  obtain ⟨u1, u2, u3⟩ := hu'
  have hsh : s.shutdown = false := by
    cases hx : s.shutdown with
    | false => rfl
    | true => exact absurd (ha.shut hx) u3
  refine ⟨hsh, ?_⟩
  have hc : s.crashed = false := by
    cases hx : s.crashed with
    | false => rfl
    | true => simp [step, hx] at hs
  cases a with
  | g t' b =>
    by_cases htt : t' = t
    · subst htt
      right; left
      exact ⟨b, by simpa [step, hc] using hs⟩
    · left
      have htt' : t ≠ t' := fun h => htt h.symm
      t_cases hs <;> simp [times, upd_of_ne _ _ htt', htt]
  | fire t' =>
    by_cases htt : t' = t
    · subst htt
      right; right
      simp only [step, hc] at hs
      cases hk : (s.tm t').ticker with
      | none => simp [hk] at hs
      | some k =>
        simp only [hk] at hs
        simp at hs
        obtain ⟨h1, rfl, rfl⟩ := hs
        exact ⟨k, rfl, h1.2, rfl, rfl, by simp [setT]⟩
    · left
      have htt' : t ≠ t' := fun h => htt h.symm
      t_cases hs <;> simp [times, upd_of_ne _ _ htt']
  | usr u =>
    left
    have h1 := ha.stop u
    have h2 := ha.reset u
    have h3 := ha.reset2 u
    have h4 := ha.reset3 u
    clear ha
    t_cases hs <;> refine ⟨?_, rfl, .inl rfl⟩ <;> grind [upd_apply]
  | onTimer d i =>
    left
    have : t ≠ s.n := by omega
    t_cases hs <;> simp [times, upd_of_ne _ _ this]
  | pass => left; t_cases hs; simp [times]
  | _ => left; t_cases hs <;> simp [times]

/-- Both schedules are invariants of an undisturbed timer, from the step that makes it. -/
theorem made_run {h : List Ev} {s : State} {t : Nat} {due interval t0 : Int} (hr : sys.Run h s)
    (hm : .made t due interval t0 ∈ h) (hu : Untouched t h) (hI : 0 < dur interval) :
    NotEarly (first t0 (dur due) (dur interval)) (dur interval) (dur due) (times t h) s.now (s.tm t) := by
  induction hr with
  | init => cases hm
  | @step h s a s' evs hr hs ih =>
    have ha := invA_run hr
    simp only [sys] at hs
    rcases List.mem_append.1 hm with hm | hm
    · obtain ⟨hsh, hf⟩ := step_frame ha hu (ha.made _ _ _ _ hm) hs
      have hi := ih hm (untouched_left hu)
      rw [times_append]
      rcases hf with ⟨h1, h2, h3⟩ | ⟨b, hb⟩ | ⟨k, h1, h2, h3, h4, h5⟩
      · rw [h1, h2, List.append_nil]
        rcases h3 with h3 | ⟨-, h3⟩ <;> rw [h3]
        · exact hi
        · exact notEarly_pass hi
      · exact notEarly_g hI hi hsh hb
      · rw [h5, h4, h3, List.append_nil]
        exact notEarly_fire hI hi h1 h2
    · cases a with
      | onTimer d i =>
        simp only [step, setT] at hs
        split at hs
        · cases hs
        cases hs
        simp at hm
        obtain ⟨rfl, rfl, rfl, rfl⟩ := hm
        have hq := (ha.calls s.n (Nat.le_refl _)).2.2.1
        have : times s.n (h ++ [.made s.n due interval s.now]) = [] := by
          rw [times_append]
          simp only [times, List.append_eq_nil_iff, List.filterMap_eq_nil_iff]
          refine ⟨?_, by simp⟩
          intro e he
          cases e <;> simp
          rintro rfl
          exact hq _ he
        rw [this]
        simp only [upd_same]
        exact notEarly_new
      | _ => t_cases hs <;> simp at hm

theorem made_prompt {h : List Ev} {s : State} {t : Nat} {due interval t0 : Int} (hp : Prompt h s)
    (hm : .made t due interval t0 ∈ h) (hu : Untouched t h) (hI : 0 < dur interval) :
    OnTime (first t0 (dur due) (dur interval)) (dur interval) (dur due) (times t h) s.now (s.tm t) := by
  induction hp with
  | init => cases hm
  | @step h s a s' evs hp hs hidle ih =>
    have hr := Prompt.run hp
    have ha := invA_run hr
    have hc : s.crashed = false := by
      cases hx : s.crashed with
      | false => rfl
      | true => simp [step, hx] at hs
    rcases List.mem_append.1 hm with hm | hm
    · obtain ⟨hsh, hf⟩ := step_frame ha hu (ha.made _ _ _ _ hm) hs
      have hi := ih hm (untouched_left hu)
      rw [times_append]
      rcases hf with ⟨h1, h2, h3⟩ | ⟨b, hb⟩ | ⟨k, h1, h2, h3, h4, h5⟩
      · rw [h1, h2, List.append_nil]
        rcases h3 with h3 | ⟨h4, h3⟩ <;> rw [h3]
        · exact hi
        · exact onTime_pass hi (hidle h4) hc
      · exact onTime_g hI hi hsh hb
      · rw [h5, h4, h3, List.append_nil]
        exact onTime_fire hI hi h1 h2
    · cases a with
      | onTimer d i =>
        simp only [step, setT] at hs
        split at hs
        · cases hs
        cases hs
        simp at hm
        obtain ⟨rfl, rfl, rfl, rfl⟩ := hm
        have hq := (ha.calls s.n (Nat.le_refl _)).2.2.1
        have : times s.n (h ++ [.made s.n due interval s.now]) = [] := by
          rw [times_append]
          simp only [times, List.append_eq_nil_iff, List.filterMap_eq_nil_iff]
          refine ⟨?_, by simp⟩
          intro e he
          cases e <;> simp
          rintro rfl
          exact hq _ he
        rw [this]
        simp only [upd_same]
        exact onTime_new
      | _ => t_cases hs <;> simp at hm

end Braid.Timer
