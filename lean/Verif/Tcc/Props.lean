import Verif.Tcc.Spec

/-
Properties C82 and C83: the transactions of the mock actors.
-/
namespace Braid.Tcc

theorem snoc_ind {α : Type} {P : List α → Prop} (hn : P []) (hs : ∀ l a, P l → P (l ++ [a])) : ∀ l, P l := by
  intro l
  rw [← l.reverse_reverse]
  induction l.reverse with
  | nil => exact hn
  | cons a l ih => simpa using hs _ a ih

theorem runOps_snoc (v new : Nat) (ops : List Op) (o : Op) : runOps v new (ops ++ [o]) = step new (runOps v new ops) o := by
  simp [runOps]

theorem last_snoc_same (ops : List Op) (o : Op) : last (ops ++ [o]) o.tx = some o := by
  simp [last]

theorem last_snoc_ne (ops : List Op) (o : Op) {t : Nat} (h : o.tx ≠ t) : last (ops ++ [o]) t = last ops t := by
  simp [last, h]

theorem pending_snoc (ops : List Op) (o : Op) (t : Nat) :
    Pending (ops ++ [o]) t ↔ o = .try_ t ∨ (o.tx ≠ t ∧ Pending ops t) := by
  unfold Pending
  by_cases h : o.tx = t
  · subst h
    rw [last_snoc_same]
    simp
  · rw [last_snoc_ne _ _ h]
    simp [h]
    intro he; subst he; exact absurd rfl h

/-- A record is there iff the transaction is pending. -/
theorem pend_iff (v new : Nat) (ops : List Op) : ∀ t, ((runOps v new ops).pend t).isSome = true ↔ Pending ops t := by
  refine snoc_ind (P := fun ops => ∀ t, ((runOps v new ops).pend t).isSome = true ↔ Pending ops t) ?_ ?_ ops
  · intro t; simp [runOps, init, Pending, last]
  · intro ops o ih t
    rw [runOps_snoc, pending_snoc, ← ih t]
    cases o with
    | try_ u =>
      by_cases h : t = u
      · subst h; simp [step]
      · have h' : u ≠ t := fun e => h e.symm
        simp [step, upd_of_ne _ _ h, Op.tx, h']
    | confirm u =>
      by_cases h : t = u
      · subst h
        simp only [step, Op.tx]
        cases hp : (runOps v new ops).pend t <;> simp [hp]
      · have h' : u ≠ t := fun e => h e.symm
        simp only [step, Op.tx]
        cases hp : (runOps v new ops).pend u <;> simp [upd_of_ne _ _ h, h']
    | cancel u =>
      by_cases h : t = u
      · subst h
        simp only [step, Op.tx]
        cases hp : (runOps v new ops).pend t <;> simp [hp]
      · have h' : u ≠ t := fun e => h e.symm
        simp only [step, Op.tx]
        cases hp : (runOps v new ops).pend u <;> simp [upd_of_ne _ _ h, h']

/-- **C83**, results: after any messages, confirm and cancel of a transaction succeed iff it is pending, and try always
does. -/
theorem C83_results (v new : Nat) (ops : List Op) (t : Nat) :
    (succeeds (runOps v new ops) (.confirm t) = true ↔ Pending ops t) ∧
    (succeeds (runOps v new ops) (.cancel t) = true ↔ Pending ops t) ∧ succeeds (runOps v new ops) (.try_ t) = true :=
  ⟨pend_iff v new ops t, pend_iff v new ops t, rfl⟩

/-- The record of a transaction holds the value before its try. -/
theorem pend_value (v new : Nat) (p q : List Op) (t : Nat) (hq : ∀ o ∈ q, o.tx ≠ t) :
    (runOps v new (p ++ .try_ t :: q)).pend t = some (runOps v new p).value := by
  revert hq
  refine snoc_ind (P := fun q => (∀ o ∈ q, o.tx ≠ t) → (runOps v new (p ++ .try_ t :: q)).pend t =
    some (runOps v new p).value) ?_ ?_ q
  · intro _
    rw [runOps_snoc]; simp [step]
  · intro q o ih ho
    have h1 := ih fun x hx => ho x (List.mem_append_left _ hx)
    have h2 : o.tx ≠ t := ho o (by simp)
    rw [show p ++ .try_ t :: (q ++ [o]) = (p ++ .try_ t :: q) ++ [o] by simp, runOps_snoc, ← h1]
    cases o with
    | try_ u => exact upd_of_ne _ _ fun e => h2 e.symm
    | confirm u =>
      simp only [step]
      split
      · exact upd_of_ne _ _ fun e => h2 e.symm
      · rfl
    | cancel u =>
      simp only [step]
      split
      · exact upd_of_ne _ _ fun e => h2 e.symm
      · rfl

/-- **C83**, the value after a cancel is the one before the try, whatever came in between. -/
theorem C83_restores (v new : Nat) (p q : List Op) (t : Nat) (hq : ∀ o ∈ q, o.tx ≠ t) :
    (runOps v new (p ++ .try_ t :: q ++ [.cancel t])).value = (runOps v new p).value := by
  rw [runOps_snoc]
  simp only [step, pend_value v new p q t hq]

/-- **C83**, a message about one transaction leaves the records of others alone. -/
theorem C83_others (v new : Nat) (ops : List Op) (o : Op) (u : Nat) (h : o.tx ≠ u) :
    (runOps v new (ops ++ [o])).pend u = (runOps v new ops).pend u := by
  rw [runOps_snoc]
  cases o with
  | try_ t => exact upd_of_ne _ _ fun e => h e.symm
  | confirm t =>
    simp only [step]
    split
    · exact upd_of_ne _ _ fun e => h e.symm
    · rfl
  | cancel t =>
    simp only [step]
    split
    · exact upd_of_ne _ _ fun e => h e.symm
    · rfl

theorem serial_prefix {p q : List Op} (h : Serial (p ++ q)) : Serial p := by
  intro a t b e
  exact h a t (b ++ q) (by simp [e])

theorem committed_snoc (ops : List Op) (o : Op) :
    Committed (ops ++ [o]) ↔ Committed ops ∨ ∃ t, o = .confirm t ∧ Pending ops t := by
  constructor
  · rintro ⟨p, t, q, e, hp⟩
    by_cases hq : q = []
    · subst hq
      have := List.append_inj' e rfl
      simp only [List.cons.injEq, and_true] at this
      exact Or.inr ⟨t, this.2, this.1 ▸ hp⟩
    · obtain ⟨q', x, rfl⟩ : ∃ q' x, q = q' ++ [x] := ⟨_, _, (List.dropLast_concat_getLast hq).symm⟩
      rw [show p ++ Op.confirm t :: (q' ++ [x]) = (p ++ Op.confirm t :: q') ++ [x] by simp] at e
      have := (List.append_inj' e rfl).1
      exact Or.inl ⟨p, t, q', this, hp⟩
  · rintro (⟨p, t, q, e, hp⟩ | ⟨t, rfl, hp⟩)
    · exact ⟨p, t, q ++ [o], by simp [e], hp⟩
    · exact ⟨ops, t, [], by simp, hp⟩

/-- Transactions one at a time: at most one is pending, the value is right, and the record holds the value to go back to. -/
theorem serial_value (v new : Nat) (ops : List Op) (hs : Serial ops) :
    (∀ t u, Pending ops t → Pending ops u → t = u) ∧ RightValue v new ops ∧
    ∀ t, Pending ops t → ((runOps v new ops).pend t = some new ∧ Committed ops) ∨
      ((runOps v new ops).pend t = some v ∧ ¬ Committed ops) := by
  revert hs
  refine snoc_ind (P := fun ops => Serial ops → (∀ t u, Pending ops t → Pending ops u → t = u) ∧ RightValue v new ops ∧
    ∀ t, Pending ops t → ((runOps v new ops).pend t = some new ∧ Committed ops) ∨
      ((runOps v new ops).pend t = some v ∧ ¬ Committed ops)) ?_ ?_ ops
  · intro _
    have hp : ∀ t, ¬ Pending [] t := by intro t; simp [Pending, last]
    refine ⟨fun t u h => absurd h (hp t), ⟨?_, fun _ => rfl⟩, fun t h => absurd h (hp t)⟩
    rintro (⟨p, t, q, e, -⟩ | ⟨t, h⟩)
    · simp at e
    · exact absurd h (hp t)
  · intro ops o ih hs
    obtain ⟨h1, ⟨h2, h2'⟩, h3⟩ := ih (serial_prefix hs)
    cases o with
    | try_ t =>
      have hn : ∀ u, ¬ Pending ops u := hs ops t [] rfl
      have hc : Committed (ops ++ [.try_ t]) ↔ Committed ops := by
        rw [committed_snoc]; simp
      have hpt : ∀ u, Pending (ops ++ [.try_ t]) u ↔ u = t := by
        intro u
        rw [pending_snoc]
        constructor
        · rintro (h | ⟨-, h⟩)
          · cases h; rfl
          · exact absurd h (hn u)
        · rintro rfl; exact Or.inl rfl
      refine ⟨?_, ⟨?_, ?_⟩, ?_⟩
      · intro a b ha hb
        rw [(hpt a).1 ha, (hpt b).1 hb]
      · intro _; rw [runOps_snoc]; rfl
      · intro h
        exact absurd (Or.inr ⟨t, (hpt t).2 rfl⟩) h
      · intro u hu
        rw [hpt] at hu
        subst hu
        rw [runOps_snoc, hc]
        simp only [step, upd_same, Option.some.injEq]
        by_cases hcm : Committed ops
        · exact Or.inl ⟨h2 (Or.inl hcm), hcm⟩
        · exact Or.inr ⟨h2' (fun h => h.elim hcm fun ⟨w, h⟩ => hn w h), hcm⟩
    | confirm t =>
      by_cases hp : Pending ops t
      · have hn : ∀ u, ¬ Pending (ops ++ [.confirm t]) u := by
          intro u hu
          rw [pending_snoc] at hu
          rcases hu with h | ⟨h, h'⟩
          · cases h
          · exact h (h1 t u hp h')
        have hc : Committed (ops ++ [.confirm t]) := (committed_snoc _ _).2 (Or.inr ⟨t, rfl, hp⟩)
        refine ⟨fun a b ha => absurd ha (hn a), ⟨fun _ => ?_, fun h => absurd (Or.inl hc) h⟩, fun u hu => absurd hu (hn u)⟩
        rw [runOps_snoc]
        have := h2 (Or.inr ⟨t, hp⟩)
        simp only [step]
        split <;> exact this
      · have hno : (runOps v new ops).pend t = none := by
          have := (not_congr (pend_iff v new ops t)).2 hp
          simpa using this
        have hst : runOps v new (ops ++ [.confirm t]) = runOps v new ops := by
          rw [runOps_snoc]; simp only [step, hno]
        have hpi : ∀ u, Pending (ops ++ [.confirm t]) u ↔ Pending ops u := by
          intro u
          rw [pending_snoc]
          constructor
          · rintro (h | ⟨-, h⟩)
            · cases h
            · exact h
          · intro h
            exact Or.inr ⟨fun e => hp (by rw [show t = u from e]; exact h), h⟩
        have hci : Committed (ops ++ [.confirm t]) ↔ Committed ops := by
          rw [committed_snoc]
          constructor
          · rintro (h | ⟨u, h, h'⟩)
            · exact h
            · cases h; exact absurd h' hp
          · exact Or.inl
        refine ⟨fun a b => by rw [hpi, hpi]; exact h1 a b, ⟨?_, ?_⟩, ?_⟩
        · simp only [hst, hpi, hci]; exact h2
        · simp only [hst, hpi, hci]; exact h2'
        · simp only [hst, hpi, hci]; exact h3
    | cancel t =>
      have hci : Committed (ops ++ [.cancel t]) ↔ Committed ops := by
        rw [committed_snoc]; simp
      by_cases hp : Pending ops t
      · have hn : ∀ u, ¬ Pending (ops ++ [.cancel t]) u := by
          intro u hu
          rw [pending_snoc] at hu
          rcases hu with h | ⟨h, h'⟩
          · cases h
          · exact h (h1 t u hp h')
        refine ⟨fun a b ha => absurd ha (hn a), ⟨?_, ?_⟩, fun u hu => absurd hu (hn u)⟩
        · rintro (h | ⟨u, h⟩)
          · rw [hci] at h
            rw [runOps_snoc]
            rcases h3 t hp with ⟨h4, -⟩ | ⟨-, h4⟩
            · simp only [step, h4]
            · exact absurd h h4
          · exact absurd h (hn u)
        · intro h
          rw [runOps_snoc]
          rcases h3 t hp with ⟨-, h4⟩ | ⟨h4, -⟩
          · exact absurd (Or.inl (hci.2 h4)) h
          · simp only [step, h4]
      · have hno : (runOps v new ops).pend t = none := by
          have := (not_congr (pend_iff v new ops t)).2 hp
          simpa using this
        have hst : runOps v new (ops ++ [.cancel t]) = runOps v new ops := by
          rw [runOps_snoc]; simp only [step, hno]
        have hpi : ∀ u, Pending (ops ++ [.cancel t]) u ↔ Pending ops u := by
          intro u
          rw [pending_snoc]
          constructor
          · rintro (h | ⟨-, h⟩)
            · cases h
            · exact h
          · intro h
            exact Or.inr ⟨fun e => hp (by rw [show t = u from e]; exact h), h⟩
        refine ⟨fun a b => by rw [hpi, hpi]; exact h1 a b, ⟨?_, ?_⟩, ?_⟩
        · simp only [hst, hpi, hci]; exact h2
        · simp only [hst, hpi, hci]; exact h2'
        · simp only [hst, hpi, hci]; exact h3

/-- **C83**, effect, the part that holds: if no try comes while a transaction is pending, the value shows a transaction iff
one is pending or was confirmed; cancelled ones leave no trace. What is missing: transactions that overlap. -/
theorem C83_effect_partial (v new : Nat) (ops : List Op) (hs : Serial ops) : RightValue v new ops :=
  (serial_value v new ops hs).2.1

/-- **C83** is violated by any two transactions that overlap: after both were cancelled the value of the first remains, and
if the second is confirmed before the first is cancelled its effect is lost. -/
theorem C83_overlap_refuted (v new : Nat) (hv : v ≠ new) (t u : Nat) (h : t ≠ u) :
    ¬ RightValue v new [.try_ t, .try_ u, .cancel t, .cancel u] ∧
    ¬ RightValue v new [.try_ t, .try_ u, .confirm u, .cancel t] := by
  have h' : u ≠ t := fun e => h e.symm
  constructor
  · rintro ⟨-, h2⟩
    have hval : (runOps v new [.try_ t, .try_ u, .cancel t, .cancel u]).value = new := by
      simp [runOps, step, init, upd_apply, h, h']
    rw [h2] at hval
    · exact hv hval
    · rintro (⟨p, w, q, e, -⟩ | ⟨w, hw⟩)
      · have : Op.confirm w ∈ [Op.try_ t, .try_ u, .cancel t, .cancel u] := by rw [e]; simp
        simp at this
      · have := (pend_iff v new [.try_ t, .try_ u, .cancel t, .cancel u] w).2 hw
        simp [runOps, step, init, upd_apply, h, h'] at this
        split at this
        · cases this
        · split at this <;> cases this
  · rintro ⟨h1, -⟩
    have hval : (runOps v new [.try_ t, .try_ u, .confirm u, .cancel t]).value = v := by
      simp [runOps, step, init, upd_apply, h, h']
    rw [h1] at hval
    · exact hv hval.symm
    · exact Or.inl ⟨[.try_ t, .try_ u], u, [.cancel t], rfl, by simp [Pending, last, Op.tx]⟩

/-- A transaction cancelled, one confirmed and one cancelled again: serial, and its value is right. -/
example : Serial [.try_ 1, .cancel 1, .try_ 2, .confirm 2] := by
  intro p t q e u
  match p, e with
  | [], _ => simp [Pending, last]
  | [a], e => simp at e
  | [a, b], e =>
    simp only [List.cons_append, List.nil_append, List.cons.injEq] at e
    obtain ⟨rfl, rfl, -⟩ := e
    by_cases h : u = 1
    · subst h; simp [Pending, last, Op.tx]
    · have : (1 == u) = false := by simpa using fun e : 1 = u => h e.symm
      simp [Pending, last, Op.tx, this]
  | [a, b, c], e => simp at e
  | a :: b :: c :: d :: r, e =>
    have := congrArg List.length e
    simp at this

/-! ### C82 -/

/-- Messages, records and the handler fit. -/
structure Inv (s : State) : Prop where
  pend : ∀ t p, ((s.part p).pend t).isSome = true ↔ (s.tries t p = .taken true ∧ s.confs t p ≠ .taken true)
  tryOk : ∀ t p, s.tries t p ≠ .taken false
  confOk : ∀ t p, s.confs t p ≠ .taken false
  confTry : ∀ t p, s.confs t p ≠ .unsent → s.tries t p = .taken true
  pcIdle : ∀ t, s.pc t = .idle → s.tries t false = .unsent ∧ s.tries t true = .unsent ∧ s.confs t false = .unsent ∧
    s.confs t true = .unsent
  pcTryB : ∀ t, s.pc t = .tryB → s.tries t true = .unsent ∧ s.confs t false = .unsent ∧ s.confs t true = .unsent
  pcTryC : ∀ t b, s.pc t = .tryC b → s.confs t false = .unsent ∧ s.confs t true = .unsent ∧
    (b = true → s.tries t false = .taken true)
  pcConfB : ∀ t, s.pc t = .confB → s.confs t true = .unsent ∧ s.tries t false = .taken true ∧ s.tries t true = .taken true
  pcConfC : ∀ t b, s.pc t = .confC b → s.tries t false = .taken true ∧ s.tries t true = .taken true ∧
    (b = true → s.confs t false = .taken true)
  pcFailed : ∀ t b c, s.pc t = .failed b c → s.confs t false = .unsent ∧ s.confs t true = .unsent
  pcFinished : ∀ t b c, s.pc t = .finished b c → s.tries t false = .taken true ∧ s.tries t true = .taken true ∧
    (b = true → s.confs t false = .taken true) ∧ (c = true → s.confs t true = .taken true)

theorem upd2_apply {β : Type} (f : Nat → Bool → β) (t : Nat) (p : Bool) (b : β) (u : Nat) (q : Bool) :
    upd2 f t p b u q = if u = t ∧ q = p then b else f u q := rfl

theorem inv_init : Inv sys.init := by
  constructor <;> simp [sys, init]

theorem inv_start (s s' : State) (t : Nat) (evs : List Unit) (hi : Inv s) (hs : cstep s (.start t) = some (s', evs)) : Inv s' := by
  obtain ⟨a1, a2, a3, a4, a5, a6, a7, a8, a9, b1, b2⟩ := hi
  simp only [cstep] at hs
  split at hs <;> simp at hs
  obtain ⟨rfl, -⟩ := hs
  constructor <;> simp only [upd_apply, upd2_apply] <;> grind

theorem inv_takeTry (s s' : State) (t : Nat) (p : Bool) (evs : List Unit) (hi : Inv s)
    (hs : cstep s (.takeTry t p) = some (s', evs)) : Inv s' := by
  obtain ⟨a1, a2, a3, a4, a5, a6, a7, a8, a9, b1, b2⟩ := hi
  simp only [cstep] at hs
  split at hs <;> simp at hs
  obtain ⟨rfl, -⟩ := hs
  constructor
  case pend =>
    intro u q
    have h1 := a1 u q
    have h4 := a4 u q
    by_cases hq : q = p
    · subst hq
      by_cases hu : u = t
      · subst hu
        simp only [upd_same, step, upd2_apply, succeeds, and_self, if_true, Option.isSome_some, true_and, true_iff]
        grind
      · simp only [upd_same, step, upd2_apply, hu, false_and, if_false, upd_of_ne _ _ hu]
        exact h1
    · simp only [upd2_apply, hq, and_false, if_false, upd_of_ne _ _ hq]
      exact h1
  all_goals simp only [upd2_apply, step, succeeds] <;> grind

theorem inv_takeConf (s s' : State) (t : Nat) (p : Bool) (evs : List Unit) (hi : Inv s)
    (hs : cstep s (.takeConf t p) = some (s', evs)) : Inv s' := by
  obtain ⟨a1, a2, a3, a4, a5, a6, a7, a8, a9, b1, b2⟩ := hi
  simp only [cstep] at hs
  split at hs <;> simp at hs
  obtain ⟨rfl, -⟩ := hs
  have hp : ((s.part p).pend t).isSome = true := (a1 t p).2 ⟨a4 t p (by simp [*]), by simp [*]⟩
  obtain ⟨v, hv⟩ := Option.isSome_iff_exists.1 hp
  constructor
  case pend =>
    intro u q
    have h1 := a1 u q
    by_cases hq : q = p
    · subst hq
      by_cases hu : u = t
      · subst hu
        simp [step, hv, upd2_apply, succeeds]
      · simp only [upd_same, step, hv, upd2_apply, hu, false_and, if_false, upd_of_ne _ _ hu]
        exact h1
    · simp only [upd2_apply, hq, and_false, if_false, upd_of_ne _ _ hq]
      exact h1
  all_goals simp only [upd2_apply, step, succeeds, hp] <;> grind

theorem inv_goOn (s : State) (t : Nat) (ok : Bool) (hi : Inv s) (hw : ok = true → waitsFor s t = some (.taken true)) :
    Inv (goOn s t ok) := by
  obtain ⟨a1, a2, a3, a4, a5, a6, a7, a8, a9, b1, b2⟩ := hi
  unfold waitsFor at hw
  unfold goOn
  split
  · constructor <;> simp only [upd_apply, upd2_apply] <;> grind
  · split
    · constructor <;> simp only [upd_apply, upd2_apply] <;> grind
    · constructor <;> simp only [upd_apply, upd2_apply] <;> grind
  · constructor <;> simp only [upd_apply, upd2_apply] <;> grind
  · constructor <;> simp only [upd_apply, upd2_apply] <;> grind
  · exact ⟨a1, a2, a3, a4, a5, a6, a7, a8, a9, b1, b2⟩

theorem inv_step (s s' : State) (a : Act) (evs : List Unit) (hi : Inv s) (hs : cstep s a = some (s', evs)) : Inv s' := by
  cases a with
  | start t => exact inv_start s s' t evs hi hs
  | takeTry t p => exact inv_takeTry s s' t p evs hi hs
  | takeConf t p => exact inv_takeConf s s' t p evs hi hs
  | ret t =>
    simp only [cstep] at hs
    split at hs <;> simp at hs
    rename_i hw
    obtain ⟨rfl, -⟩ := hs
    exact inv_goOn s t true hi fun _ => hw
  | err t =>
    simp only [cstep] at hs
    split at hs <;> simp at hs
    obtain ⟨rfl, -⟩ := hs
    exact inv_goOn s t false hi (by simp)

theorem inv_run {h : List Unit} {s : State} (hr : sys.Run h s) : Inv s :=
  Lts.Run.invariant (M := sys) (P := fun _ s => Inv s) inv_init
    (fun h s a s' evs _ hi hs => inv_step s s' a evs hi hs) hr

/-- **C82**, the part that holds: if the four calls returned nil both participants have confirmed; and if neither
participant ever takes a try, neither has anything of the transaction. What is missing: calls that fail or time out. -/
theorem C82_success_partial {h : List Unit} {s : State} (hr : sys.Run h s) (t : Nat) :
    (s.pc t = .finished true true → ∀ p, Confirmed s t p) ∧
    ((∀ p ok, s.tries t p ≠ .taken ok) → ∀ p, Untouched s t p) := by
  have hi := inv_run hr
  constructor
  · intro hp p
    have h1 := hi.pcFinished t true true hp
    have h2 : s.confs t p = .taken true := by cases p <;> simp [h1]
    refine ⟨h2, ?_⟩
    have := (not_congr (hi.pend t p)).2 (by rintro ⟨-, h⟩; exact h h2)
    simpa using this
  · intro hn p
    refine ⟨hn p, ?_⟩
    have := (not_congr (hi.pend t p)).2 (by rintro ⟨h, -⟩; exact hn p true h)
    simpa using this

/-- The handler stays at its failed end. -/
theorem failed_stays {s s' : State} {a : Act} {evs : List Unit} (hs : cstep s a = some (s', evs)) (t : Nat) (b c : Bool)
    (hp : s.pc t = .failed b c) : s'.pc t = .failed b c := by
  cases a with
  | start u =>
    simp only [cstep] at hs
    split at hs <;> simp at hs
    obtain ⟨rfl, -⟩ := hs
    have : t ≠ u := by rintro rfl; simp_all
    simpa [upd_of_ne _ _ this] using hp
  | takeTry u p => simp only [cstep] at hs; split at hs <;> simp at hs; obtain ⟨rfl, -⟩ := hs; exact hp
  | takeConf u p => simp only [cstep] at hs; split at hs <;> simp at hs; obtain ⟨rfl, -⟩ := hs; exact hp
  | ret u =>
    simp only [cstep] at hs
    split at hs <;> simp at hs
    obtain ⟨rfl, -⟩ := hs
    unfold goOn
    by_cases h : t = u
    · subst h; simp [hp]
    · repeat' split
      all_goals simp [upd_of_ne _ _ h, hp]
  | err u =>
    simp only [cstep] at hs
    split at hs <;> simp at hs
    obtain ⟨rfl, -⟩ := hs
    unfold goOn
    by_cases h : t = u
    · subst h; simp [hp]
    · repeat' split
      all_goals simp [upd_of_ne _ _ h, hp]

/-- Messages taken stay taken. -/
theorem taken_stays {s s' : State} {a : Act} {evs : List Unit} (hi : Inv s) (hs : cstep s a = some (s', evs)) (t : Nat)
    (p : Bool) (hp : s.tries t p = .taken true) : s'.tries t p = .taken true := by
  cases a with
  | start u =>
    have h5 := hi.pcIdle u
    simp only [cstep] at hs
    split at hs <;> simp at hs
    obtain ⟨rfl, -⟩ := hs
    simp only [upd2_apply]
    grind
  | takeTry u q =>
    simp only [cstep] at hs
    split at hs <;> simp at hs
    obtain ⟨rfl, -⟩ := hs
    simp only [upd2_apply, succeeds]
    grind
  | takeConf u q => simp only [cstep] at hs; split at hs <;> simp at hs; obtain ⟨rfl, -⟩ := hs; exact hp
  | ret u =>
    have h6 := hi.pcTryB u
    simp only [cstep] at hs
    split at hs <;> simp at hs
    obtain ⟨rfl, -⟩ := hs
    unfold goOn
    repeat' split
    all_goals grind [upd2_apply]
  | err u =>
    have h6 := hi.pcTryB u
    simp only [cstep] at hs
    split at hs <;> simp at hs
    obtain ⟨rfl, -⟩ := hs
    unfold goOn
    repeat' split
    all_goals grind [upd2_apply]

/-- **C82** is violated whenever a try fails: a participant that took the other one (or takes it later) keeps it pending for
good, as no cancel is ever sent. -/
theorem C82_stuck_refuted {h : List Unit} {s : State} (hr : sys.Run h s) (t : Nat) (b c : Bool) (hp : s.pc t = .failed b c)
    (p : Bool) (ht : s.tries t p = .taken true) {as : List Act} {s' : State} {es : List Unit}
    (he : sys.exec s as = some (s', es)) : ((s'.part p).pend t).isSome = true ∧ ¬ Atomic s' t := by
  have key : ∀ (as : List Act) (s : State), Inv s → s.pc t = .failed b c → s.tries t p = .taken true →
      ∀ s' es, sys.exec s as = some (s', es) → Inv s' ∧ s'.pc t = .failed b c ∧ s'.tries t p = .taken true := by
    intro as
    induction as with
    | nil => intro s hi hp ht s' es he; simp [Lts.exec] at he; obtain ⟨rfl, -⟩ := he; exact ⟨hi, hp, ht⟩
    | cons a as ih =>
      intro s hi hp ht s' es he
      simp only [Lts.exec] at he
      split at he
      · cases he
      · rename_i s1 e1 h1
        split at he
        · cases he
        · rename_i s2 e2 h2
          simp only [Option.some.injEq, Prod.mk.injEq] at he
          obtain ⟨rfl, -⟩ := he
          exact ih s1 (inv_step s s1 a e1 hi h1) (failed_stays h1 t b c hp) (taken_stays hi h1 t p ht) _ _ h2
  obtain ⟨hi, hp', ht'⟩ := key as s (inv_run hr) hp ht s' es he
  have hu : ∀ p, s'.confs t p = .unsent := by
    have := hi.pcFailed t b c hp'
    intro p; cases p <;> simp [this]
  have hpend : ((s'.part p).pend t).isSome = true := (hi.pend t p).2 ⟨ht', by rw [hu p]; simp⟩
  refine ⟨hpend, ?_⟩
  rintro (h | h)
  · have := (h p).1
    rw [hu p] at this
    cases this
  · exact (h p).1 true ht'

/-- **C82** is violated: the try at b fails, that at c is done, and the handler ends; the value of c is that of the
transaction, that of b the old one. -/
theorem C82_refuted : ∃ h s t, sys.Run h s ∧ Ended s t ∧ ¬ Atomic s t ∧ (s.part false).value = 11 ∧ (s.part true).value = 222 := by
  have hr := Lts.run_of_exec (M := sys) (as := [.start 0, .err 0, .takeTry 0 true, .ret 0]) rfl
  refine ⟨_, _, 0, hr, Or.inl ⟨false, true, rfl⟩, ?_, rfl, rfl⟩
  exact (C82_stuck_refuted hr 0 false true rfl true rfl (as := []) rfl).2

/-- **C82** is violated also if both tries succeed: the confirm of c is lost, and c keeps the transaction pending. -/
theorem C82_confirm_refuted : ∃ h s t, sys.Run h s ∧ Ended s t ∧ ¬ Atomic s t ∧ Confirmed s t false := by
  have hr := Lts.run_of_exec (M := sys) (as := [.start 0, .takeTry 0 false, .ret 0, .takeTry 0 true, .ret 0, .takeConf 0 false,
    .ret 0, .err 0]) rfl
  refine ⟨_, _, 0, hr, Or.inr ⟨true, false, rfl⟩, ?_, rfl, rfl⟩
  rintro (h | h)
  · exact absurd (h true).1 (by decide)
  · exact (h false).1 true rfl

/-- A transaction that succeeds. -/
example : ∃ h s, sys.Run h s ∧ s.pc 0 = .finished true true ∧ Atomic s 0 := by
  have hr := Lts.run_of_exec (M := sys) (as := [.start 0, .takeTry 0 false, .ret 0, .takeTry 0 true, .ret 0, .takeConf 0 false,
    .ret 0, .takeConf 0 true, .ret 0]) rfl
  exact ⟨_, _, hr, rfl, Or.inl ((C82_success_partial hr 0).1 rfl)⟩

end Braid.Tcc
