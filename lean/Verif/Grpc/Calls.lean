import Verif.Grpc.Inv

/-
What a call has done so far.
-/
namespace Braid.Grpc
open Spec

variable {max : Nat}

/-- What a call `o` that began after `h1` and stands at a place has done. -/
def CallOk (h1 h2 : List Ev) (g : Nat) (o : Op) : Pc → Prop
  | .idle => False
  | .cSlot a b => o = .call a b ∧ sends g h2 = [] ∧ opens g h2 = []
  | .cConn a b => o = .call a b ∧ sends g h2 = [] ∧ opens g h2 = []
  | .cOpts a _ b => o = .call a b ∧ sends g h2 = [] ∧ opens g h2 = []
  | .cInvoke a _ => o = .call a true ∧ sends g h2 = [] ∧ opens g h2 = []
  | .cFree r => opens g h2 = [] ∧ ∃ a b, o = .call a b ∧ (r = .noConn ∧ sends g h2 = [] ∧ ¬ Used a h1 ∨
      r = .badOption ∧ b = false ∧ sends g h2 = [] ∨ ∃ c ok, sends g h2 = [(a, c, ok)] ∧ b = true ∧ r = if ok then .ok else .invoke)
  | .wConn a => o = .callWait a ∧ sends g h2 = [] ∧ opens g h2 = []
  | .wDial a => o = .callWait a ∧ sends g h2 = [] ∧ opens g h2 = [] ∧ ¬ Used a h1
  | .wStore a c => o = .callWait a ∧ sends g h2 = [] ∧ opens g h2 = [(a, c)] ∧ ¬ Used a h1
  | .wInvoke a c => o = .callWait a ∧ sends g h2 = [] ∧ (opens g h2 = [] ∨ opens g h2 = [(a, c)] ∧ ¬ Used a h1)

def CInv (h : List Ev) (s : State) : Prop :=
  ∀ g, s.pc g ≠ .idle → ∃ h1 o h2, h = h1 ++ .begin g o :: h2 ∧ Within g h2 ∧ CallOk h1 h2 g o (s.pc g)

theorem sends_append (g : Nat) (h k : List Ev) : sends g (h ++ k) = sends g h ++ sends g k := List.filterMap_append

theorem opens_append (g : Nat) (h k : List Ev) : opens g (h ++ k) = opens g h ++ opens g k := List.filterMap_append

theorem sends_nil (g : Nat) : sends g [] = [] := rfl
theorem opens_nil (g : Nat) : opens g [] = [] := rfl
theorem sends_acquired (g g' : Nat) : sends g [.acquired g'] = [] := rfl
theorem opens_acquired (g g' : Nat) : opens g [.acquired g'] = [] := rfl
theorem sends_opened (g g' c : Nat) (a : String) : sends g [.opened g' a c] = [] := rfl
theorem opens_opened (g c : Nat) (a : String) : opens g [.opened g a c] = [(a, c)] := by simp [opens]
theorem sends_sent (g c : Nat) (a : String) (ok : Bool) : sends g [.sent g a c ok] = [(a, c, ok)] := by simp [sends]
theorem opens_sent (g g' c : Nat) (a : String) (ok : Bool) : opens g [.sent g' a c ok] = [] := rfl

theorem within_append {g : Nat} {h k : List Ev} (h1 : Within g h) (h2 : Within g k) : Within g (h ++ k) := by
  intro e he
  rcases List.mem_append.1 he with he | he
  · exact h1 e he
  · exact h2 e he

theorem used_append {a : String} {h k : List Ev} (h1 : Used a h) : Used a (h ++ k) := by
  obtain ⟨g, c, ok, h⟩ := h1
  exact ⟨g, c, ok, List.mem_append_left _ h⟩

/-- The goroutine goes on in its call. -/
theorem goes_on {h : List Ev} {s : State} (hc : CInv h s) {g : Nat} (hg : s.pc g ≠ .idle) {evs : List Ev} {p : Pc}
    (hw : Within g evs) (h' : ∀ h1 h2 o, h = h1 ++ .begin g o :: h2 → CallOk h1 h2 g o (s.pc g) → CallOk h1 (h2 ++ evs) g o p) :
    ∃ h1 o h2, h ++ evs = h1 ++ .begin g o :: h2 ∧ Within g h2 ∧ CallOk h1 h2 g o p := by
  obtain ⟨h1, o, h2, e1, e2, e3⟩ := hc g hg
  exact ⟨h1, o, h2 ++ evs, by rw [e1]; simp, within_append e2 hw, h' h1 h2 o e1 e3⟩

/-- The call of another goroutine. -/
theorem callOk_other {h1 h2 k : List Ev} {g : Nat} {o : Op} {p : Pc} (hs : sends g k = []) (ho : opens g k = [])
    (h : CallOk h1 h2 g o p) : CallOk h1 (h2 ++ k) g o p := by
  cases p <;> simp only [CallOk, sends_append, opens_append, hs, ho, List.append_nil] at h ⊢ <;> exact h

theorem cinv_run {h : List Ev} {s : State} (hr : (sys max).Run h s) : CInv h s := by
  refine hr.invariant (P := CInv) (by intro g hg; exact absurd rfl hg) ?_
  intro h s a s' evs hr' hc hs
  have hi := invC_run hr'
  replace hs : step max s a = some (s', evs) := hs
  have hmap : ∀ a, s.connmap a = none → ¬ Used a h := by
    rintro a hn ⟨g, c, ok, hu⟩
    exact (hi.sent _ _ _ _ hu).2 hn
  have hpre : ∀ {a h1 h2 e}, s.connmap a = none → h = h1 ++ e :: h2 → ¬ Used a h1 := by
    intro a h1 h2 e hn he hu
    exact hmap a hn (he ▸ used_append hu)
  intro x hx
  cases a <;> gr_cases hs
  all_goals
    simp only [upd_apply] at hx ⊢
    split at hx
    · subst_vars
      simp only [if_true]
      first
        | exact absurd rfl hx
        | exact ⟨h, _, [], rfl, by simp [Within], rfl, rfl, rfl⟩
        | (have hpc := ‹s.pc _ = _›
           refine goes_on hc (by rw [hpc]; simp) (by simp [Within]) fun h1 h2 o he hk => ?_
           rw [hpc] at hk
           have hp : ∀ a, s.connmap a = none → ¬ Used a h1 := fun a hn => hpre hn he
           simp only [CallOk, sends_append, opens_append, sends_acquired, opens_acquired, sends_opened,
             opens_opened, sends_sent, opens_sent, List.append_nil] at hk ⊢
           first
             | grind
             | exact ⟨hk.2.2, _, _, hk.1, .inr (.inr ⟨_, _, by rw [hk.2.1]; rfl, rfl, by simp_all⟩)⟩)
    · rename_i hne
      simp only [hne, if_false]
      refine goes_on hc hx ?_ fun h1 h2 o he hk => callOk_other ?_ ?_ hk
      all_goals simp_all [Within, sends, opens]
      all_goals grind

/-- A call is at one place of the history only. -/
theorem begin_unique {g : Nat} {o o' : Op} {h1 h1' h2 h2' : List Ev}
    (he : h1 ++ .begin g o :: h2 = h1' ++ .begin g o' :: h2') (hn : Within g h2) (hn' : Within g h2') :
    h1 = h1' ∧ o = o' ∧ h2 = h2' := by
  rcases List.append_eq_append_iff.1 he with ⟨a, rfl, h3⟩ | ⟨a, rfl, h3⟩
  · cases a with
    | nil => simp at h3; exact ⟨by simp, h3.1, h3.2⟩
    | cons x a =>
      simp only [List.cons_append, List.cons.injEq] at h3
      exact absurd rfl ((hn (.begin g o') (by rw [h3.2]; simp)).1 o')
  · cases a with
    | nil => simp at h3; exact ⟨by simp, h3.1.symm, h3.2.symm⟩
    | cons x a =>
      simp only [List.cons_append, List.cons.injEq] at h3
      exact absurd rfl ((hn' (.begin g o) (by rw [h3.2]; simp)).1 o)

/-- The step at which a call returns. -/
theorem finish_cases {s s' : State} {a : Act} {pre post : List Ev} {g : Nat} {r : Res}
    (hs : step max s a = some (s', pre ++ .finish g r :: post)) :
    (∃ a b, s.pc g = .cSlot a b ∧ pre = [] ∧ r = .noSlot) ∨ (s.pc g = .cFree r ∧ pre = [.freed g]) ∨
    (∃ a, s.pc g = .wDial a ∧ pre = [] ∧ r = .noDial) ∨
    ∃ a c ok, s.pc g = .wInvoke a c ∧ pre = [.sent g a c ok] ∧ r = if ok then .ok else .invoke := by
  cases a <;> simp only [step] at hs <;> repeat' (split at hs)
  all_goals first
    | (cases hs; done)
    | skip
  all_goals
    simp only [Option.some.injEq, Prod.mk.injEq] at hs
    obtain ⟨-, he⟩ := hs
    rcases pre with _ | ⟨x, _ | ⟨y, l⟩⟩ <;> simp at he
  all_goals grind

theorem begin_before {g : Nat} {o : Op} {h evs h1 h2 : List Ev} (he : h ++ evs = h1 ++ .begin g o :: h2)
    (hn : ∀ o, .begin g o ∉ evs) : ∃ k, h = h1 ++ .begin g o :: k ∧ h2 = k ++ evs := by
  rcases List.append_eq_append_iff.1 he with ⟨a, rfl, h3⟩ | ⟨a, rfl, h3⟩
  · exact absurd (by rw [h3]; simp) (hn o)
  · cases a with
    | nil => exact absurd (by rw [← List.nil_append evs, ← h3]; simp) (hn o)
    | cons x a =>
      simp only [List.cons_append, List.cons.injEq] at h3
      exact ⟨a, by rw [h3.1], h3.2⟩

/-- A call that has not returned is in progress. -/
theorem not_idle {h : List Ev} {s : State} (hr : (sys max).Run h s) {g : Nat} {o : Op} {h1 h2 : List Ev}
    (he : h = h1 ++ .begin g o :: h2) (hw : Within g h2) : s.pc g ≠ .idle := by
  revert o h1 h2
  refine hr.invariant (P := fun h s => ∀ {o : Op} {h1 h2 : List Ev}, h = h1 ++ .begin g o :: h2 → Within g h2 → s.pc g ≠ .idle)
    (by intro o h1 h2 he; simp at he) ?_
  intro h s a s' evs _ ih hs o h1 h2 he hw
  replace hs : step max s a = some (s', evs) := hs
  by_cases hb : ∃ o, .begin g o ∈ evs
  · obtain ⟨o', hb⟩ := hb
    cases a <;> gr_cases hs
    all_goals simp at hb
    all_goals (obtain ⟨rfl, -⟩ := hb; simp)
  · obtain ⟨k, rfl, rfl⟩ := begin_before he fun o ho => hb ⟨o, ho⟩
    have h0 := ih rfl fun e he => hw e (List.mem_append_left _ he)
    have hf : ∀ r, .finish g r ∉ evs := fun r hm => (hw _ (List.mem_append_right _ hm)).2 r rfl
    cases a <;> gr_cases hs
    all_goals simp only [upd_apply]
    all_goals split
    all_goals first
      | exact h0
      | (simp; done)
      | (subst_vars; simp at hf; done)

end Braid.Grpc
