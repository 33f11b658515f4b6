import Verif.SLog.Model
import Mathlib.Data.List.Induction

/-
C137: which logger the records of the process go to.
-/
namespace Braid.SLog

/-- The last `SetSLog` was given this. -/
def SetNow (h : List Ev) (p : Option Nat) : Prop := ∃ a b, h = a ++ .set p :: b ∧ ∀ q, Ev.set q ∉ b

/-! ### Lemmas -/

theorem one {s s' : State} {a : Act} {evs : List Ev} (h : step s a = some (s', evs)) : ∃ e, evs = [e] := by
  cases a with
  | create l t => cases h; exact ⟨_, rfl⟩
  | literal => cases h; exact ⟨_, rfl⟩
  | set p =>
    cases p with
    | none => cases h; exact ⟨_, rfl⟩
    | some i => simp only [step] at h; split at h <;> cases h; exact ⟨_, rfl⟩
  | exportSLog l t =>
    cases l with
    | none => cases h; exact ⟨_, rfl⟩
    | some l => simp only [step] at h; split at h <;> cases h <;> exact ⟨_, rfl⟩
  | pkg => simp only [step] at h; split at h <;> cases h <;> exact ⟨_, rfl⟩
  | own i => simp only [step] at h; split at h <;> cases h; exact ⟨_, rfl⟩

theorem snoc {h : List Ev} {e : Ev} {s : State} (hr : sys.Run (h ++ [e]) s) :
    ∃ s0 a, sys.Run h s0 ∧ step s0 a = some (s, [e]) := by
  generalize hk : h ++ [e] = k at hr
  cases hr with
  | init => simp at hk
  | @step h' s0 a s' evs hr' hs =>
    obtain ⟨e', rfl⟩ := one hs
    obtain ⟨rfl, h2⟩ := List.append_inj' hk rfl
    cases h2
    exact ⟨s0, a, hr', hs⟩

theorem prefixRun {h h' : List Ev} {s : State} (hr : sys.Run (h ++ h') s) : ∃ s0, sys.Run h s0 := by
  induction h' using List.reverseRecOn generalizing s with
  | nil => rw [List.append_nil] at hr; exact ⟨s, hr⟩
  | append_singleton h' e ih =>
    rw [← List.append_assoc] at hr
    obtain ⟨s0, _, hr0, _⟩ := snoc hr
    exact ih hr0

/-- What an event says about the step. -/
theorem effect {s s' : State} {a : Act} {e : Ev} (h : step s a = some (s', [e])) :
    s'.sLog = (match e with | .set p => p | _ => s.sLog) ∧
    (s'.free = match e with | .created _ _ _ => s.free + 1 | .literal _ => s.free + 1 | _ => s.free) ∧
    (match e with
      | .created i l t => i = s.free ∧ s'.heap = upd s.heap i (some ⟨l, t⟩)
      | .literal i => i = s.free ∧ s'.heap = upd s.heap i none
      | .set p => s'.heap = s.heap ∧ ∀ i, p = some i → i < s.free
      | .exported l t => ∃ i, s.sLog = some i ∧ s'.heap = upd s.heap i (some ⟨l, t⟩)
      | .pkg r => s'.heap = s.heap ∧ r = s.sLog.bind s.heap
      | .own i r => s'.heap = s.heap ∧ r = s.heap i ∧ i < s.free
      | .exportPanic => s'.heap = s.heap) := by
  cases a with
  | create l t => cases h; exact ⟨rfl, rfl, rfl, rfl⟩
  | literal => cases h; exact ⟨rfl, rfl, rfl, rfl⟩
  | set p =>
    cases p with
    | none => cases h; exact ⟨rfl, rfl, rfl, by simp⟩
    | some i =>
      simp only [step] at h
      split at h <;> cases h
      rename_i hi
      exact ⟨rfl, rfl, rfl, fun j hj => by cases hj; exact hi⟩
  | exportSLog l t =>
    cases l with
    | none => cases h; exact ⟨rfl, rfl, rfl⟩
    | some l =>
      simp only [step] at h
      split at h <;> cases h
      · exact ⟨rfl, rfl, rfl⟩
      · rename_i i hi
        exact ⟨rfl, rfl, i, hi, rfl⟩
  | pkg =>
    simp only [step] at h
    split at h <;> cases h <;> rename_i hi
    · exact ⟨rfl, rfl, rfl, by rw [hi]; rfl⟩
    · exact ⟨rfl, rfl, rfl, by rw [hi]; rfl⟩
  | own i =>
    simp only [step] at h
    split at h <;> cases h
    rename_i hi
    exact ⟨rfl, rfl, rfl, rfl, hi⟩

/-- The variable is what the last `SetSLog` was given; object 0 before the first. -/
theorem sLog_eq {h : List Ev} {s : State} (hr : sys.Run h s) :
    (∀ p, SetNow h p → s.sLog = p) ∧ ((∀ q, Ev.set q ∉ h) → s.sLog = some 0) := by
  induction h using List.reverseRecOn generalizing s with
  | nil =>
    refine ⟨fun p ⟨a, b, hab, _⟩ => by simp at hab, fun _ => ?_⟩
    generalize hk : ([] : List Ev) = k at hr
    cases hr with
    | init => rfl
    | step hr' hs => obtain ⟨e', rfl⟩ := one hs; simp at hk
  | append_singleton h e ih =>
    obtain ⟨s0, a, hr0, hs⟩ := snoc hr
    obtain ⟨h1, -, -⟩ := effect hs
    obtain ⟨i1, i2⟩ := ih hr0
    refine ⟨fun p ⟨x, y, hxy, hy⟩ => ?_, fun hn => ?_⟩
    · rcases List.eq_nil_or_concat y with rfl | ⟨y', z, rfl⟩
      · obtain ⟨-, h2⟩ := List.append_inj' hxy rfl
        cases h2
        exact h1
      · rw [List.concat_eq_append] at hxy hy
        have hxy' : h ++ [e] = (x ++ .set p :: y') ++ [z] := by rw [hxy]; simp
        obtain ⟨rfl, h2⟩ := List.append_inj' hxy' rfl
        cases h2
        have := i1 p ⟨x, y', rfl, fun q hq => hy q (List.mem_append_left _ hq)⟩
        cases e with
        | set q => exact absurd (List.mem_append_right _ (List.mem_singleton.2 rfl)) (hy q)
        | _ => exact h1.trans this
    · have := i2 fun q hq => hn q (List.mem_append_left _ hq)
      cases e with
      | set q => exact absurd (List.mem_append_right _ (List.mem_singleton.2 rfl)) (hn q)
      | _ => exact h1.trans this

/-- Conversely. -/
theorem setNow_of {h : List Ev} {s : State} (hr : sys.Run h s) {i : Nat} (hi : s.sLog = some i) :
    SetNow h (some i) ∨ (i = 0 ∧ ∀ q, Ev.set q ∉ h) := by
  have hdich : (∀ q, Ev.set q ∉ h) ∨ ∃ p, SetNow h p := by
    clear hr hi
    induction h using List.reverseRecOn with
    | nil => exact .inl fun q => by simp
    | append_singleton h e ih =>
      by_cases he : ∃ p, e = .set p
      · obtain ⟨p, rfl⟩ := he
        exact .inr ⟨p, h, [], rfl, by simp⟩
      · have hne : ∀ q, Ev.set q ∉ [e] := fun q hq => he ⟨q, (List.mem_singleton.1 hq).symm⟩
        rcases ih with h0 | ⟨p, a, b, rfl, hb⟩
        · exact .inl fun q hq => (List.mem_append.1 hq).elim (h0 q) (hne q)
        · exact .inr ⟨p, a, b ++ [e], by simp, fun q hq => (List.mem_append.1 hq).elim (hb q) (hne q)⟩
  obtain ⟨h1, h2⟩ := sLog_eq hr
  rcases hdich with h0 | ⟨p, hp⟩
  · have := h2 h0
    rw [hi] at this
    cases this
    exact .inr ⟨rfl, h0⟩
  · have := h1 p hp
    rw [hi] at this
    subst this
    exact .inl hp

theorem bounds {h : List Ev} {s : State} (hr : sys.Run h s) :
    0 < s.free ∧ ∀ i, s.sLog = some i → i < s.free := by
  refine hr.invariant (P := fun _ s => 0 < s.free ∧ ∀ i, s.sLog = some i → i < s.free) ⟨by decide, ?_⟩ ?_
  · intro i hi; cases hi; decide
  · intro h s a s' evs _ hi hs
    obtain ⟨e, rfl⟩ := one hs
    obtain ⟨h1, h2, h3⟩ := effect hs
    obtain ⟨i1, i2⟩ := hi
    cases e with
    | created j l t => simp only at h1 h2; rw [h1, h2]; exact ⟨by omega, fun i hi => Nat.lt_succ_of_lt (i2 i hi)⟩
    | literal j => simp only at h1 h2; rw [h1, h2]; exact ⟨by omega, fun i hi => Nat.lt_succ_of_lt (i2 i hi)⟩
    | set p => simp only at h1 h2 h3; rw [h1, h2]; exact ⟨i1, h3.2⟩
    | _ => simp only at h1 h2; rw [h1, h2]; exact ⟨i1, i2⟩

/-- An object keeps its helper until `ExportSLog` is called while it is set. -/
theorem keeps {h0 h : List Ev} {i : Nat} {r : Option Helper} (h00 : ∀ s, sys.Run h0 s → i < s.free ∧ s.heap i = r) :
    ∀ {s : State}, sys.Run (h0 ++ h) s → (∀ a b l t, h = a ++ .exported l t :: b →
        ¬ (SetNow (h0 ++ a) (some i) ∨ (i = 0 ∧ ∀ q, Ev.set q ∉ h0 ++ a))) →
      i < s.free ∧ s.heap i = r := by
  induction h using List.reverseRecOn with
  | nil => intro s hr _; rw [List.append_nil] at hr; exact h00 s hr
  | append_singleton h e ih =>
    intro s hr hx
    rw [← List.append_assoc] at hr
    obtain ⟨s0, a, hr0, hs⟩ := snoc hr
    obtain ⟨i1, i2⟩ := ih hr0 fun x y l t hxy => hx x (y ++ [e]) l t (by rw [hxy]; simp)
    obtain ⟨h1, h2, h3⟩ := effect hs
    cases e with
    | created j l t =>
      obtain ⟨rfl, h3⟩ := h3
      simp only at h2
      rw [h2, h3, upd_of_ne _ _ (by omega)]
      exact ⟨by omega, i2⟩
    | literal j =>
      obtain ⟨rfl, h3⟩ := h3
      simp only at h2
      rw [h2, h3, upd_of_ne _ _ (by omega)]
      exact ⟨by omega, i2⟩
    | exported l t =>
      obtain ⟨j, hj, h3⟩ := h3
      simp only at h2
      by_cases hij : i = j
      · subst hij
        exact absurd (setNow_of hr0 hj) (hx h [] l t rfl)
      · rw [h2, h3, upd_of_ne _ _ hij]
        exact ⟨i1, i2⟩
    | set p => rw [h2, h3.1]; exact ⟨i1, i2⟩
    | exportPanic => rw [h2, h3]; exact ⟨i1, i2⟩
    | pkg r => rw [h2, h3.1]; exact ⟨i1, i2⟩
    | own j r => rw [h2, h3.1]; exact ⟨i1, i2⟩

/-! ### C137 -/

/-- C137: the records of the package go to the logger given to `ExportSLog` last, with its tag, until the next `SetSLog`. -/
theorem C137_export {h1 h2 : List Ev} {l : Nat} {t : String} {r : Option Helper} {s : State}
    (hr : sys.Run (h1 ++ .exported l t :: h2 ++ [.pkg r]) s) (h : ∀ e ∈ h2, (∀ q, e ≠ .set q) ∧ ∀ l t, e ≠ .exported l t) :
    r = some ⟨l, t⟩ := by
  obtain ⟨s0, a, hr0, hs⟩ := snoc hr
  obtain ⟨-, -, -, hrr⟩ := effect hs
  have key : ∃ i, s0.sLog = some i ∧ s0.heap i = some ⟨l, t⟩ := by
    clear hs hrr hr
    induction h2 using List.reverseRecOn generalizing s0 with
    | nil =>
      obtain ⟨s1, a1, hr1, hs1⟩ := snoc hr0
      obtain ⟨g1, g2, i, g3, g4⟩ := effect hs1
      exact ⟨i, g1.trans g3, by rw [g4, upd_same]⟩
    | append_singleton h2 e ih =>
      rw [show h1 ++ Ev.exported l t :: (h2 ++ [e]) = (h1 ++ Ev.exported l t :: h2) ++ [e] by simp] at hr0
      obtain ⟨s1, a1, hr1, hs1⟩ := snoc hr0
      obtain ⟨i, i1, i2⟩ := ih (fun e he => h e (List.mem_append_left _ he)) s1 hr1
      obtain ⟨g1, -, g3⟩ := effect hs1
      obtain ⟨n1, n2⟩ := h e (List.mem_append_right _ (List.mem_singleton.2 rfl))
      have hlt := (bounds hr1).2 i i1
      cases e with
      | set q => exact absurd rfl (n1 q)
      | exported l' t' => exact absurd rfl (n2 l' t')
      | created j l' t' =>
        obtain ⟨rfl, g3⟩ := g3
        exact ⟨i, g1.trans i1, by rw [g3, upd_of_ne _ _ (by omega)]; exact i2⟩
      | literal j =>
        obtain ⟨rfl, g3⟩ := g3
        exact ⟨i, g1.trans i1, by rw [g3, upd_of_ne _ _ (by omega)]; exact i2⟩
      | exportPanic => exact ⟨i, g1.trans i1, by rw [g3]; exact i2⟩
      | pkg r' => exact ⟨i, g1.trans i1, by rw [g3.1]; exact i2⟩
      | own j r' => exact ⟨i, g1.trans i1, by rw [g3.1]; exact i2⟩
  obtain ⟨i, k1, k2⟩ := key
  rw [hrr, k1]
  exact k2

/-- C137 (partial): the records of an object go to the logger it was made with, if `ExportSLog` is never called while the object
is set. Missing: such calls (`C137_own_refuted`). -/
theorem C137_own_partial {h1 h2 : List Ev} {i l : Nat} {t : String} {r : Option Helper} {s : State}
    (hr : sys.Run (h1 ++ .created i l t :: h2 ++ [.own i r]) s)
    (hx : ∀ a b l' t', h2 = a ++ .exported l' t' :: b → ¬ SetNow (h1 ++ .created i l t :: a) (some i)) : r = some ⟨l, t⟩ := by
  obtain ⟨s0, a, hr0, hs⟩ := snoc hr
  obtain ⟨-, -, -, hrr, -⟩ := effect hs
  rw [hrr]
  rw [show h1 ++ Ev.created i l t :: h2 = (h1 ++ [.created i l t]) ++ h2 by simp] at hr0
  have hi : i ≠ 0 := by
    rw [show h1 ++ Ev.created i l t :: h2 ++ [Ev.own i r] = h1 ++ [Ev.created i l t] ++ (h2 ++ [Ev.own i r]) by simp] at hr
    obtain ⟨s1, hr1⟩ := prefixRun hr
    obtain ⟨s2, a2, hr2, hs2⟩ := snoc hr1
    obtain ⟨-, -, rfl, -⟩ := effect hs2
    have := (bounds hr2).1
    omega
  refine (keeps (r := some ⟨l, t⟩) (fun s1 hr1 => ?_) hr0 fun a b l' t' he hor => ?_).2
  rotate_left
  · rcases hor with hor | ⟨h0, _⟩
    · exact hx a b l' t' he (by simpa using hor)
    · exact hi h0
  obtain ⟨s2, a2, hr2, hs2⟩ := snoc hr1
  obtain ⟨-, g2, rfl, g3⟩ := effect hs2
  exact ⟨by rw [g2]; exact Nat.lt_succ_self _, by rw [g3, upd_same]⟩

/-- C137 (exactly): otherwise they go to the logger of the last such `ExportSLog`. -/
theorem C137_own_exported {h1 h2 : List Ev} {i l : Nat} {t : String} {r : Option Helper} {s : State}
    (hr : sys.Run (h1 ++ .exported l t :: h2 ++ [.own i r]) s) (hi : SetNow h1 (some i))
    (hx : ∀ a b l' t', h2 = a ++ .exported l' t' :: b → ¬ SetNow (h1 ++ .exported l t :: a) (some i)) : r = some ⟨l, t⟩ := by
  obtain ⟨s0, a, hr0, hs⟩ := snoc hr
  obtain ⟨-, -, -, hrr, -⟩ := effect hs
  rw [hrr]
  rw [show h1 ++ Ev.exported l t :: h2 = (h1 ++ [.exported l t]) ++ h2 by simp] at hr0
  refine (keeps (r := some ⟨l, t⟩) (fun s1 hr1 => ?_) hr0 fun a b l' t' he hor => ?_).2
  rotate_left
  · rcases hor with hor | ⟨_, h0⟩
    · exact hx a b l' t' he (by simpa using hor)
    · obtain ⟨x, y, rfl, _⟩ := hi
      exact h0 (some i) (by simp)
  obtain ⟨s2, a2, hr2, hs2⟩ := snoc hr1
  obtain ⟨-, g2, j, gj, g3⟩ := effect hs2
  have := (sLog_eq hr2).1 _ hi
  rw [gj] at this
  cases this
  exact ⟨by rw [g2]; exact (bounds hr2).2 _ gj, by rw [g3, upd_same]⟩

/-- C137 (partial): after `SetSLog` the records of the package go to the logger of this object, if `ExportSLog` was not called
while it was set. Missing: such calls. -/
theorem C137_set_partial {h1 h2 : List Ev} {i l : Nat} {t : String} {r : Option Helper} {s : State}
    (hr : sys.Run (h1 ++ .created i l t :: h2 ++ [.pkg r]) s) (hi : SetNow (h1 ++ .created i l t :: h2) (some i))
    (hx : ∀ a b l' t', h2 = a ++ .exported l' t' :: b → ¬ SetNow (h1 ++ .created i l t :: a) (some i)) : r = some ⟨l, t⟩ := by
  obtain ⟨s0, a, hr0, hs⟩ := snoc hr
  obtain ⟨-, -, -, hrr⟩ := effect hs
  have hcur := (sLog_eq hr0).1 _ hi
  have hlt := (bounds hr0).2 _ hcur
  have : sys.Run (h1 ++ .created i l t :: h2 ++ [.own i (s0.heap i)]) s0 :=
    hr0.step (a := .own i) (s' := s0) (by simp only [sys, step, hlt, if_true])
  rw [hrr, hcur]
  exact C137_own_partial this hx

/-- C137: without `SetSLog` and `ExportSLog` the records of the package go to the logger of the start, without a tag. -/
theorem C137_default {h : List Ev} {r : Option Helper} {s : State} (hr : sys.Run (h ++ [.pkg r]) s) (h1 : ∀ q, Ev.set q ∉ h)
    (h2 : ∀ l t, Ev.exported l t ∉ h) : r = some ⟨0, ""⟩ := by
  obtain ⟨s0, a, hr0, hs⟩ := snoc hr
  obtain ⟨-, -, -, hrr⟩ := effect hs
  rw [hrr, (sLog_eq hr0).2 h1]
  refine (keeps (h0 := []) (r := some ⟨0, ""⟩) (fun s1 hr1 => ?_) hr0 fun a b l t hab _ => ?_).2
  · generalize hk : ([] : List Ev) = k at hr1
    cases hr1 with
    | init => exact ⟨by decide, rfl⟩
    | step hr' hs => obtain ⟨e', rfl⟩ := one hs; simp at hk
  · exact absurd (by rw [hab]; simp) (h2 l t)

/-- C137: after `SetSLog(nil)` every record of the package panics until the next `SetSLog`; `ExportSLog` does not help, it
panics too. -/
theorem C137_nil {h : List Ev} {e : Ev} {s : State} (hr : sys.Run (h ++ [e]) s) (hn : SetNow h none) :
    (∀ r, e = .pkg r → r = none) ∧ ∀ l t, e ≠ .exported l t := by
  obtain ⟨s0, a, hr0, hs⟩ := snoc hr
  obtain ⟨-, -, h3⟩ := effect hs
  have hcur := (sLog_eq hr0).1 _ hn
  constructor
  · rintro r rfl
    rw [h3.2, hcur]; rfl
  · rintro l t rfl
    obtain ⟨i, hi, -⟩ := h3
    rw [hcur] at hi; cases hi

/-- The full statement of C137 for the objects: their records go to the logger they were made with. -/
def OwnLogger : Prop := ∀ h1 h2 i l t r s, sys.Run (h1 ++ .created i l t :: h2 ++ [.own i r]) s → r = some ⟨l, t⟩

/-- C137 is violated: `ExportSLog` writes into the object given to `SetSLog`: it then has another logger and tag. -/
theorem C137_own_refuted : ¬ OwnLogger := by
  intro h
  have hr : sys.Run [.created 1 7 "game", .set (some 1), .exported 9 "gate", .own 1 (some ⟨9, "gate"⟩)] _ :=
    Lts.run_of_exec (M := sys) (as := [.create 7 "game", .set (some 1), .exportSLog (some 9) "gate", .own 1]) rfl
  have := h [] [.set (some 1), .exported 9 "gate"] 1 7 "game" _ _ hr
  cases this

/-- The full statement of C137 for the package: a record never panics. -/
def NeverPanics : Prop := ∀ h s, sys.Run (h ++ [.pkg none]) s → False

/-- C137 is violated by `SetSLog(nil)`: for example with the result of a `NewServerLogger` whose error was ignored. -/
theorem C137_nil_refuted : ¬ NeverPanics := by
  intro h
  exact h [.set none] _ (Lts.run_of_exec (M := sys) (as := [.set none, .pkg]) rfl)

/-- Two loggers, one of them set, then another exported: the hypotheses can be met. -/
example : ∃ s, sys.Run ([] ++ .created 1 7 "game" :: [.created 2 8 "db", .set (some 1), .own 2 (some ⟨8, "db"⟩)] ++
    [.pkg (some ⟨7, "game"⟩)]) s ∧ SetNow ([] ++ .created 1 7 "game" :: [.created 2 8 "db", .set (some 1), .own 2 (some ⟨8, "db"⟩)]) (some 1) :=
  ⟨_, Lts.run_of_exec (M := sys) (as := [.create 7 "game", .create 8 "db", .set (some 1), .own 2, .pkg]) rfl,
    [.created 1 7 "game", .created 2 8 "db"], [.own 2 (some ⟨8, "db"⟩)], rfl, by simp⟩

example : ∃ s, sys.Run ([.created 1 7 "game", .set (some 1)] ++ .exported 9 "gate" :: [.created 2 8 "db"] ++
    [.pkg (some ⟨9, "gate"⟩)]) s :=
  ⟨_, Lts.run_of_exec (M := sys) (as := [.create 7 "game", .set (some 1), .exportSLog (some 9) "gate", .create 8 "db", .pkg]) rfl⟩

end Braid.SLog
