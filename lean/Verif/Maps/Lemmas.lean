import Verif.Maps.Spec

/-
When paths of lock operations and accesses race: exactly if two accesses, one of them a write, are made with locks held
that two goroutines can hold at the same time.
-/
namespace Braid.Maps
open Spec Lts

/-- How a goroutine holds the lock. -/
inductive Mode
  | free
  | shared
  | excl
deriving DecidableEq

def after : Mode → Op → Mode
  | _, .lock => .excl
  | _, .rlock => .shared
  | _, .unlock => .free
  | _, .runlock => .free
  | m, .acc _ => m

def afterAll : Mode → List Op → Mode
  | m, [] => m
  | m, o :: r => afterAll (after m o) r

/-- The accesses of a path, with the lock held then. -/
def accs : Mode → List Op → List (Mode × Kind)
  | _, [] => []
  | m, .acc k :: r => (m, k) :: accs m r
  | m, o :: r => accs (after m o) r

/-- The lock is taken only when it is not held, released only when it is, and not held in the end. -/
def bal : Mode → List Op → Bool
  | m, [] => m = .free
  | m, .lock :: r => m = .free && bal .excl r
  | m, .rlock :: r => m = .free && bal .shared r
  | m, .unlock :: r => m = .excl && bal .free r
  | m, .runlock :: r => m = .shared && bal .free r
  | m, .acc _ :: r => bal m r

/-- Two goroutines can hold the lock like this at the same time. -/
def compat : Mode → Mode → Bool
  | .free, _ => true
  | _, .free => true
  | .shared, .shared => true
  | _, _ => false

/-- How goroutine `g` holds the lock. -/
def mode (s : State) (g : Nat) : Mode :=
  if s.writer = some g then .excl else if g ∈ s.readers then .shared else .free

structure Inv (P : List (List Op)) (h : List Ev) (s : State) : Prop where
  excl : s.writer ≠ none → s.readers = []
  nodup : s.readers.Nodup
  bal : ∀ g, bal (mode s g) (s.todo g) = true
  accs : ∀ g, ∀ x ∈ accs (mode s g) (s.todo g), ∃ p ∈ P, x ∈ accs .free p
  ins : ∀ g k, s.ins g = some k → ∃ p ∈ P, (mode s g, k) ∈ Maps.accs .free p
  out : ∀ g k h1 h2, h = h1 ++ .enter g k :: h2 → .leave g ∉ h2 → s.ins g = some k

theorem mode_compat {P h s} (hi : Inv P h s) {g d : Nat} (hgd : g ≠ d) : compat (mode s g) (mode s d) = true := by
  unfold mode
  by_cases h1 : s.writer = some g
  · have hr := hi.excl (by rw [h1]; simp)
    simp [h1, hr, hgd, compat]
  · by_cases h2 : s.writer = some d
    · have hr := hi.excl (by rw [h2]; simp)
      simp [h2, hr, Ne.symm hgd, compat]
    · simp only [h1, h2, if_false]
      split <;> split <;> rfl

theorem inv_init (P : List (List Op)) : Inv P [] init := by
  constructor
  · intro h; exact absurd rfl h
  · exact List.nodup_nil
  · intro g; rfl
  · intro g x hx; simp [init, accs] at hx
  · intro g k hk; simp [init] at hk
  · intro g k h1 h2 h; simp at h

/-- The part of the invariant about histories. -/
theorem out_step {s s' : State} {h evs : List Ev}
    (ho : ∀ g k h1 h2, h = h1 ++ .enter g k :: h2 → .leave g ∉ h2 → s.ins g = some k)
    (h0 : evs = [] → s'.ins = s.ins)
    (h1 : ∀ g, evs = [.leave g] → s'.ins = upd s.ins g none)
    (h2 : ∀ g k, evs = [.enter g k] → s'.ins = upd s.ins g (some k) ∧ s.ins g = none)
    (h3 : evs = [] ∨ (∃ g, evs = [.leave g]) ∨ ∃ g k, evs = [.enter g k]) :
    ∀ g k a b, h ++ evs = a ++ .enter g k :: b → .leave g ∉ b → s'.ins g = some k := by
  intro g k a b he hl
  rcases List.append_eq_append_iff.mp he with ⟨x, hx, hy⟩ | ⟨x, hx, hy⟩
  · rcases h3 with h3 | ⟨d, h3⟩ | ⟨d, j, h3⟩
    · rw [h3] at hy; cases x <;> simp at hy
    · rw [h3] at hy
      cases x with
      | nil => simp at hy
      | cons u v => simp at hy
    · rw [h3] at hy
      cases x with
      | nil =>
        simp only [List.nil_append, List.cons.injEq, Ev.enter.injEq] at hy
        obtain ⟨⟨rfl, rfl⟩, -⟩ := hy
        rw [(h2 _ _ h3).1, upd_same]
      | cons u v => simp at hy
  · cases x with
    | nil =>
      simp only [List.append_nil, List.nil_append] at hx hy
      rcases h3 with h3 | ⟨d, h3⟩ | ⟨d, j, h3⟩
      · rw [h3] at hy; cases hy
      · rw [h3] at hy; cases hy
      · rw [h3] at hy
        simp only [List.cons.injEq, Ev.enter.injEq] at hy
        obtain ⟨⟨rfl, rfl⟩, -⟩ := hy
        rw [(h2 _ _ h3).1, upd_same]
    | cons u v =>
      simp only [List.cons_append, List.cons.injEq] at hy
      obtain ⟨rfl, rfl⟩ := hy
      have hl' : .leave g ∉ v := fun h => hl (List.mem_append_left _ h)
      have hg := ho g k a v hx hl'
      rcases h3 with h3 | ⟨d, h3⟩ | ⟨d, j, h3⟩
      · rw [h0 h3]; exact hg
      · rw [h1 d h3]
        by_cases hgd : g = d
        · subst hgd
          exact absurd (by rw [h3]; simp) hl
        · rw [upd_of_ne _ _ hgd]; exact hg
      · obtain ⟨e1, e2⟩ := h2 d j h3
        rw [e1]
        by_cases hgd : g = d
        · subst hgd; rw [e2] at hg; cases hg
        · rw [upd_of_ne _ _ hgd]; exact hg

theorem mode_free {s : State} {g : Nat} (h : mode s g = .free) : s.writer ≠ some g ∧ g ∉ s.readers := by
  unfold mode at h
  split at h
  · cases h
  · split at h
    · cases h
    · exact ⟨by assumption, by assumption⟩

theorem mode_excl {s : State} {g : Nat} (h : mode s g = .excl) : s.writer = some g := by
  unfold mode at h
  split at h
  · assumption
  · split at h <;> cases h

theorem mode_shared {s : State} {g : Nat} (h : mode s g = .shared) : s.writer ≠ some g ∧ g ∈ s.readers := by
  unfold mode at h
  split at h
  · cases h
  · split at h
    · exact ⟨by assumption, by assumption⟩
    · cases h

/-- The step of goroutine `g` with operation `o`, once the changes of the modes are known. -/
theorem inv_op {P h s s' g o r} (hi : Inv P h s) (ht : s.todo g = o :: r) (ht' : s'.todo = upd s.todo g r)
    (hm : mode s' g = after (mode s g) o) (hmd : ∀ d, d ≠ g → mode s' d = mode s d)
    (hb : bal (after (mode s g) o) r = true)
    (ha : ∀ x ∈ accs (after (mode s g) o) r, x ∈ accs (mode s g) (o :: r))
    (he : s'.writer ≠ none → s'.readers = []) (hn : s'.readers.Nodup) (hin : s'.ins = s.ins) (hno : s.ins g = none) :
    Inv P h s' := by
  constructor
  · exact he
  · exact hn
  · intro d
    rw [ht']
    by_cases hd : d = g
    · subst hd; rw [upd_same, hm]; exact hb
    · rw [upd_of_ne _ _ hd, hmd d hd]; exact hi.bal d
  · intro d x hx
    rw [ht'] at hx
    by_cases hd : d = g
    · subst hd
      rw [upd_same, hm] at hx
      exact hi.accs d x (by rw [ht]; exact ha x hx)
    · rw [upd_of_ne _ _ hd, hmd d hd] at hx
      exact hi.accs d x hx
  · intro d k hk
    rw [hin] at hk
    by_cases hd : d = g
    · subst hd; rw [hno] at hk; cases hk
    · rw [hmd d hd]; exact hi.ins d k hk
  · rw [hin]; exact hi.out

theorem inv_step {P h s s' a evs} (hP : ∀ p ∈ P, bal .free p = true) (hi : Inv P h s)
    (hs : step P s a = some (s', evs)) : Inv P (h ++ evs) s' := by
  cases a with
  | start g p =>
    simp only [step] at hs
    split at hs
    · rename_i hc
      obtain ⟨hp, ht, hin⟩ := hc
      simp only [Option.some.injEq, Prod.mk.injEq] at hs
      obtain ⟨rfl, rfl⟩ := hs
      have hmf : mode s g = .free := by
        have := hi.bal g
        rw [ht] at this
        simpa [bal] using this
      have hmm : ∀ d, mode { s with todo := upd s.todo g p } d = mode s d := fun _ => rfl
      rw [List.append_nil]
      constructor
      · exact hi.excl
      · exact hi.nodup
      · intro d
        rw [hmm]
        dsimp only
        by_cases hd : d = g
        · subst hd; rw [upd_same, hmf]; exact hP p hp
        · rw [upd_of_ne _ _ hd]; exact hi.bal d
      · intro d x hx
        rw [hmm] at hx
        dsimp only at hx
        by_cases hd : d = g
        · subst hd; rw [upd_same, hmf] at hx; exact ⟨p, hp, hx⟩
        · rw [upd_of_ne _ _ hd] at hx; exact hi.accs d x hx
      · exact hi.ins
      · exact hi.out
    · cases hs
  | run g =>
    simp only [step, stepRun] at hs
    cases hin : s.ins g with
    | some k =>
      rw [hin] at hs
      simp only [Option.some.injEq, Prod.mk.injEq] at hs
      obtain ⟨rfl, rfl⟩ := hs
      refine ⟨hi.excl, hi.nodup, hi.bal, hi.accs, ?_, ?_⟩
      · intro d j hj
        dsimp only at hj
        by_cases hd : d = g
        · subst hd; rw [upd_same] at hj; cases hj
        · rw [upd_of_ne _ _ hd] at hj; exact hi.ins d j hj
      · refine out_step hi.out (by simp) ?_ (by simp) (.inr (.inl ⟨g, rfl⟩))
        intro d hd
        simp only [List.cons.injEq, Ev.leave.injEq, and_true] at hd
        subst hd; rfl
    | none =>
      rw [hin] at hs
      have hb := hi.bal g
      cases ht : s.todo g with
      | nil => rw [ht] at hs; cases hs
      | cons o r =>
        rw [ht] at hs hb
        cases o with
        | lock =>
          dsimp only at hs
          split at hs
          · rename_i hc
            obtain ⟨hw, hr⟩ := hc
            simp only [Option.some.injEq, Prod.mk.injEq] at hs
            obtain ⟨rfl, rfl⟩ := hs
            simp only [bal, Bool.and_eq_true, decide_eq_true_eq] at hb
            rw [List.append_nil]
            refine inv_op hi ht rfl ?_ ?_ hb.2 ?_ ?_ hi.nodup rfl hin
            · simp [mode, after]
            · intro d hd
              simp [mode, hw, hr, Ne.symm hd]
            · intro x hx; exact hx
            · intro _; exact hr
          · cases hs
        | unlock =>
          simp only [Option.some.injEq, Prod.mk.injEq] at hs
          obtain ⟨rfl, rfl⟩ := hs
          simp only [bal, Bool.and_eq_true, decide_eq_true_eq] at hb
          have hw := mode_excl hb.1
          have hr := hi.excl (by rw [hw]; simp)
          rw [List.append_nil]
          refine inv_op hi ht rfl ?_ ?_ hb.2 ?_ ?_ hi.nodup rfl hin
          · simp [mode, after, hr]
          · intro d hd
            simp [mode, hw, hr, Ne.symm hd]
          · intro x hx; exact hx
          · intro h; exact absurd rfl h
        | rlock =>
          dsimp only at hs
          split at hs
          · rename_i hw
            simp only [Option.some.injEq, Prod.mk.injEq] at hs
            obtain ⟨rfl, rfl⟩ := hs
            simp only [bal, Bool.and_eq_true, decide_eq_true_eq] at hb
            rw [List.append_nil]
            refine inv_op hi ht rfl ?_ ?_ hb.2 ?_ ?_ ?_ rfl hin
            · simp [mode, after, hw]
            · intro d hd
              simp [mode, hd]
            · intro x hx; exact hx
            · intro h; exact absurd hw h
            · exact List.nodup_cons.mpr ⟨(mode_free hb.1).2, hi.nodup⟩
          · cases hs
        | runlock =>
          simp only [Option.some.injEq, Prod.mk.injEq] at hs
          obtain ⟨rfl, rfl⟩ := hs
          simp only [bal, Bool.and_eq_true, decide_eq_true_eq] at hb
          obtain ⟨hw, hr⟩ := mode_shared hb.1
          rw [List.append_nil]
          refine inv_op hi ht rfl ?_ ?_ hb.2 ?_ ?_ ?_ rfl hin
          · simp [mode, after, hw, List.Nodup.not_mem_erase hi.nodup]
          · intro d hd
            simp [mode, List.mem_erase_of_ne hd]
          · intro x hx; exact hx
          · intro h
            have := hi.excl h
            rw [this] at hr; cases hr
          · exact hi.nodup.erase g
        | acc k =>
          simp only [Option.some.injEq, Prod.mk.injEq] at hs
          obtain ⟨rfl, rfl⟩ := hs
          have hmm : ∀ d, mode { s with ins := upd s.ins g (some k), todo := upd s.todo g r } d = mode s d := fun _ => rfl
          have hacc : ∀ x ∈ (mode s g, k) :: accs (mode s g) r, ∃ p ∈ P, x ∈ accs .free p := by
            intro x hx
            exact hi.accs g x (by rw [ht]; exact hx)
          constructor
          · exact hi.excl
          · exact hi.nodup
          · intro d
            rw [hmm]
            dsimp only
            by_cases hd : d = g
            · subst hd; rw [upd_same]; exact hb
            · rw [upd_of_ne _ _ hd]; exact hi.bal d
          · intro d x hx
            rw [hmm] at hx
            dsimp only at hx
            by_cases hd : d = g
            · subst hd; rw [upd_same] at hx; exact hacc x (List.mem_cons_of_mem _ hx)
            · rw [upd_of_ne _ _ hd] at hx; exact hi.accs d x hx
          · intro d j hj
            rw [hmm]
            dsimp only at hj
            by_cases hd : d = g
            · subst hd
              rw [upd_same] at hj
              cases hj
              exact hacc _ List.mem_cons_self
            · rw [upd_of_ne _ _ hd] at hj; exact hi.ins d j hj
          · refine out_step hi.out (by simp) (by simp) ?_ (.inr (.inr ⟨g, k, rfl⟩))
            intro d j hd
            simp only [List.cons.injEq, Ev.enter.injEq, and_true] at hd
            obtain ⟨rfl, rfl⟩ := hd
            exact ⟨rfl, hin⟩

theorem run_inv {P h s} (hP : ∀ p ∈ P, bal .free p = true) (hr : (sys P).Run h s) : Inv P h s :=
  hr.invariant (inv_init P) (fun _ _ _ _ _ _ hi hs => inv_step hP hi hs)

/-- Two accesses that can be made at the same time, one of them a write. -/
def Clash (P : List (List Op)) : Prop :=
  ∃ p ∈ P, ∃ q ∈ P, ∃ x ∈ accs .free p, ∃ y ∈ accs .free q,
    compat x.1 y.1 = true ∧ (x.2 = .write ∨ y.2 = .write)

theorem step_len {P s s' a evs} (hs : step P s a = some (s', evs)) : evs.length ≤ 1 := by
  cases a with
  | start g p =>
    simp only [step] at hs
    split at hs
    · cases hs; simp
    · cases hs
  | run g =>
    simp only [step, stepRun] at hs
    split at hs
    · cases hs; simp
    · split at hs
      · cases hs
      · split at hs <;> cases hs; simp
      · cases hs; simp
      · split at hs <;> cases hs; simp
      · cases hs; simp
      · cases hs; simp

theorem clash_of_race {P h s} (hP : ∀ p ∈ P, bal .free p = true) (hr : (sys P).Run h s) (hh : Race h) : Clash P := by
  obtain ⟨h1, h2, h3, g, k, d, j, he, hgd, hl, hw⟩ := hh
  obtain ⟨h0, s0, a, s1, pre, post, as, rest, hr0, hs, hpre, -, -⟩ := hr.split_at he
  have hlen := step_len (P := P) hs
  simp only [List.length_append, List.length_cons] at hlen
  have e1 : pre = [] := List.length_eq_zero_iff.mp (by omega)
  have e2 : post = [] := List.length_eq_zero_iff.mp (by omega)
  subst e1 e2
  simp only [List.append_nil, List.nil_append] at hpre hs
  have hi := run_inv hP (hr0.step hs)
  rw [← hpre] at hi
  have hd := hi.out d j (h1 ++ .enter g k :: h2) [] rfl (by simp)
  have hg := hi.out g k h1 (h2 ++ [.enter d j]) (by simp) (by simp [hl])
  obtain ⟨p, hp, hx⟩ := hi.ins g k hg
  obtain ⟨q, hq, hy⟩ := hi.ins d j hd
  exact ⟨p, hp, q, hq, _, hx, _, hy, mode_compat hi hgd, hw⟩

/-! ### The converse -/

/-- Nobody but `g` holds the lock, and `g` holds it like this. -/
def Holds (s : State) (g : Nat) : Mode → Prop
  | .free => s.writer = none ∧ s.readers = []
  | .shared => s.writer = none ∧ s.readers = [g]
  | .excl => s.writer = some g ∧ s.readers = []

/-- What a stretch of `g` alone leaves as it was. -/
structure Alone (g : Nat) (s s' : State) (h : List Ev) : Prop where
  todo : ∀ d, d ≠ g → s'.todo d = s.todo d
  ins : ∀ d, d ≠ g → s'.ins d = s.ins d
  ev : ∀ d, d ≠ g → .leave d ∉ h

theorem Alone.trans {g s s1 s2 h1 h2} (a : Alone g s s1 h1) (b : Alone g s1 s2 h2) : Alone g s s2 (h1 ++ h2) where
  todo d hd := by rw [b.todo d hd, a.todo d hd]
  ins d hd := by rw [b.ins d hd, a.ins d hd]
  ev d hd := by simp [a.ev d hd, b.ev d hd]

/-- `g` can run any stretch of a balanced path when nobody else holds the lock. -/
theorem alone (P : List (List Op)) (g : Nat) : ∀ (p1 rest : List Op) (m : Mode) (s : State),
    s.todo g = p1 ++ rest → s.ins g = none → Holds s g m → bal m (p1 ++ rest) = true →
    ∃ as s' h, (sys P).exec s as = some (s', h) ∧ s'.todo g = rest ∧ s'.ins g = none ∧ Holds s' g (afterAll m p1) ∧
      bal (afterAll m p1) rest = true ∧ Alone g s s' h
  | [], rest, m, s, ht, hin, hh, hb => by
    exact ⟨[], s, [], rfl, ht, hin, hh, hb, fun _ _ => rfl, fun _ _ => rfl, fun _ _ => by simp⟩
  | o :: p1, rest, m, s, ht, hin, hh, hb => by
    have key : ∃ bs s1 h1, (sys P).exec s bs = some (s1, h1) ∧ s1.todo g = p1 ++ rest ∧ s1.ins g = none ∧
        Holds s1 g (after m o) ∧ bal (after m o) (p1 ++ rest) = true ∧ Alone g s s1 h1 := by
      cases o with
      | lock =>
        simp only [List.cons_append, bal, Bool.and_eq_true, decide_eq_true_eq] at hb
        obtain ⟨rfl, hb⟩ := hb
        obtain ⟨hw, hr⟩ := hh
        refine ⟨[.run g], _, _, exec_cons (s1 := { s with writer := some g, todo := upd s.todo g (p1 ++ rest) }) (e1 := [])
          ?_ rfl, upd_same .., hin, ⟨rfl, hr⟩, hb, ⟨fun d hd => upd_of_ne _ _ hd, fun _ _ => rfl, by simp⟩⟩
        simp [sys, step, stepRun, hin, ht, hw, hr]
      | unlock =>
        simp only [List.cons_append, bal, Bool.and_eq_true, decide_eq_true_eq] at hb
        obtain ⟨rfl, hb⟩ := hb
        obtain ⟨hw, hr⟩ := hh
        refine ⟨[.run g], _, _, exec_cons (s1 := { s with writer := none, todo := upd s.todo g (p1 ++ rest) }) (e1 := [])
          ?_ rfl, upd_same .., hin, ⟨rfl, hr⟩, hb, ⟨fun d hd => upd_of_ne _ _ hd, fun _ _ => rfl, by simp⟩⟩
        simp [sys, step, stepRun, hin, ht]
      | rlock =>
        simp only [List.cons_append, bal, Bool.and_eq_true, decide_eq_true_eq] at hb
        obtain ⟨rfl, hb⟩ := hb
        obtain ⟨hw, hr⟩ := hh
        refine ⟨[.run g], _, _, exec_cons (s1 := { s with readers := g :: s.readers, todo := upd s.todo g (p1 ++ rest) })
          (e1 := []) ?_ rfl, upd_same .., hin, ⟨hw, by simp [hr]⟩, hb,
          ⟨fun d hd => upd_of_ne _ _ hd, fun _ _ => rfl, by simp⟩⟩
        simp [sys, step, stepRun, hin, ht, hw]
      | runlock =>
        simp only [List.cons_append, bal, Bool.and_eq_true, decide_eq_true_eq] at hb
        obtain ⟨rfl, hb⟩ := hb
        obtain ⟨hw, hr⟩ := hh
        refine ⟨[.run g], _, _, exec_cons (s1 := { s with readers := s.readers.erase g, todo := upd s.todo g (p1 ++ rest) })
          (e1 := []) ?_ rfl, upd_same .., hin, ⟨hw, by simp [hr]⟩, hb,
          ⟨fun d hd => upd_of_ne _ _ hd, fun _ _ => rfl, by simp⟩⟩
        simp [sys, step, stepRun, hin, ht]
      | acc k =>
        refine ⟨[.run g, .run g], _, _, exec_cons
          (s1 := { s with ins := upd s.ins g (some k), todo := upd s.todo g (p1 ++ rest) }) (e1 := [.enter g k]) ?_
          (exec_cons (s1 := { s with ins := upd (upd s.ins g (some k)) g none, todo := upd s.todo g (p1 ++ rest) })
            (e1 := [.leave g]) ?_ rfl), upd_same .., upd_same .., ?_, hb, ⟨?_, ?_, ?_⟩⟩
        · simp [sys, step, stepRun, hin, ht]
        · simp [sys, step, stepRun, upd_same]
        · cases m <;> exact hh
        · intro d hd; exact upd_of_ne _ _ hd
        · intro d hd; dsimp only; rw [upd_of_ne _ _ hd, upd_of_ne _ _ hd]
        · intro d hd; simp [hd]
    obtain ⟨bs, s1, h1, he, ht1, hin1, hh1, hb1, ha1⟩ := key
    obtain ⟨as, s', h2, he2, ht2, hin2, hh2, hb2, ha2⟩ := alone P g p1 rest (after m o) s1 ht1 hin1 hh1 hb1
    exact ⟨bs ++ as, s', h1 ++ h2, exec_append he he2, ht2, hin2, hh2, hb2, ha1.trans ha2⟩

/-- An access that is made while `g` holds the lock in some way. -/
theorem find_acc : ∀ (p : List Op) (m : Mode) (x : Mode × Kind), x ∈ accs m p →
    ∃ p1 p2, p = p1 ++ .acc x.2 :: p2 ∧ afterAll m p1 = x.1
  | [], _, _, h => by simp [accs] at h
  | o :: r, m, x, h => by
    cases o with
    | acc k =>
      simp only [accs, List.mem_cons] at h
      rcases h with rfl | h
      · exact ⟨[], r, rfl, rfl⟩
      · obtain ⟨p1, p2, h1, h2⟩ := find_acc r m x h
        exact ⟨.acc k :: p1, p2, by rw [h1]; rfl, h2⟩
    | lock => obtain ⟨p1, p2, h1, h2⟩ := find_acc r _ x h; exact ⟨.lock :: p1, p2, by rw [h1]; rfl, h2⟩
    | unlock => obtain ⟨p1, p2, h1, h2⟩ := find_acc r _ x h; exact ⟨.unlock :: p1, p2, by rw [h1]; rfl, h2⟩
    | rlock => obtain ⟨p1, p2, h1, h2⟩ := find_acc r _ x h; exact ⟨.rlock :: p1, p2, by rw [h1]; rfl, h2⟩
    | runlock => obtain ⟨p1, p2, h1, h2⟩ := find_acc r _ x h; exact ⟨.runlock :: p1, p2, by rw [h1]; rfl, h2⟩

theorem bal_append : ∀ (a b : List Op) (m : Mode), bal m (a ++ b) = true → bal (afterAll m a) b = true
  | [], _, _, h => h
  | o :: a, b, m, h => by
    have : bal (after m o) (a ++ b) = true := by
      cases o <;> simp only [List.cons_append, bal, Bool.and_eq_true] at h <;>
        first | exact h.2 | exact h
    exact bal_append a b _ this

/-- Where a lock held in shared mode was taken. -/
theorem find_rlock : ∀ (p : List Op) (m : Mode), afterAll m p = .shared →
    (m = .shared ∧ ∀ o ∈ p, ∃ k, o = .acc k) ∨ ∃ a b, p = a ++ .rlock :: b ∧ ∀ o ∈ b, ∃ k, o = .acc k
  | [], m, h => .inl ⟨h, by simp⟩
  | o :: r, m, h => by
    rcases find_rlock r (after m o) h with ⟨h1, h2⟩ | ⟨a, b, rfl, hb⟩
    · cases o with
      | rlock => exact .inr ⟨[], r, rfl, h2⟩
      | acc k => exact .inl ⟨h1, by simpa using h2⟩
      | lock => cases h1
      | unlock => cases h1
      | runlock => cases h1
    · exact .inr ⟨o :: a, b, rfl, hb⟩

/-- Accesses need no lock to go on. -/
theorem alone_acc (P : List (List Op)) (g : Nat) : ∀ (b rest : List Op) (s : State),
    (∀ o ∈ b, ∃ k, o = .acc k) → s.todo g = b ++ rest → s.ins g = none →
    ∃ as s' h, (sys P).exec s as = some (s', h) ∧ s'.todo g = rest ∧ s'.ins g = none ∧ Alone g s s' h
  | [], rest, s, _, ht, hin => ⟨[], s, [], rfl, ht, hin, fun _ _ => rfl, fun _ _ => rfl, fun _ _ => by simp⟩
  | o :: b, rest, s, hb, ht, hin => by
    obtain ⟨k, rfl⟩ := hb o (by simp)
    obtain ⟨as, s', h, he, h1, h2, h3⟩ := alone_acc P g b rest
      { s with ins := upd (upd s.ins g (some k)) g none, todo := upd s.todo g (b ++ rest) }
      (fun o ho => hb o (by simp [ho])) (upd_same ..) (upd_same ..)
    refine ⟨.run g :: .run g :: as, s', [.enter g k] ++ ([.leave g] ++ h), exec_cons
      (s1 := { s with ins := upd s.ins g (some k), todo := upd s.todo g (b ++ rest) }) ?_ (exec_cons ?_ he), h1, h2, ?_⟩
    · simp [sys, step, stepRun, hin, ht]
    · simp [sys, step, stepRun, upd_same]
    · refine Alone.trans (s1 := { s with ins := upd s.ins g (some k), todo := upd s.todo g (b ++ rest) })
        ⟨?_, ?_, ?_⟩ (Alone.trans
          (s1 := { s with ins := upd (upd s.ins g (some k)) g none, todo := upd s.todo g (b ++ rest) }) ⟨?_, ?_, ?_⟩ h3)
      · intro d hd; exact upd_of_ne _ _ hd
      · intro d hd; exact upd_of_ne _ _ hd
      · intro d hd; simp
      · intro d hd; rfl
      · intro d hd; dsimp only; rw [upd_of_ne _ _ hd, upd_of_ne _ _ hd]
      · intro d hd; simp [hd]

/-- `g` is about to access the map. -/
def At (s : State) (g : Nat) (k : Kind) : Prop := s.ins g = none ∧ ∃ r, s.todo g = .acc k :: r

/-- Two goroutines that are about to access the map race if one of them writes. -/
theorem race_of_at {P h s g d k j} (hr : (sys P).Run h s) (hgd : g ≠ d) (hg : At s g k) (hd : At s d j)
    (hw : k = .write ∨ j = .write) : ∃ h' s', (sys P).Run h' s' ∧ Race h' := by
  obtain ⟨hg1, r, hg2⟩ := hg
  obtain ⟨hd1, r', hd2⟩ := hd
  let s1 : State := { s with ins := upd s.ins g (some k), todo := upd s.todo g r }
  have e1 : (sys P).step s (.run g) = some (s1, [.enter g k]) := by simp [sys, step, stepRun, hg1, hg2, s1]
  have e2 : (sys P).step s1 (.run d) = some ({ s1 with ins := upd s1.ins d (some j), todo := upd s1.todo d r' },
      [.enter d j]) := by
    have a1 : s1.ins d = none := by simp only [s1]; rw [upd_of_ne _ _ hgd.symm]; exact hd1
    have a2 : s1.todo d = .acc j :: r' := by simp only [s1]; rw [upd_of_ne _ _ hgd.symm]; exact hd2
    simp [sys, step, stepRun, a1, a2]
  refine ⟨_, _, (hr.step e1).step e2, h, [], [], g, k, d, j, by simp, hgd, by simp, hw⟩

theorem run_exec {P h s as s' h'} (hr : (sys P).Run h s) (he : (sys P).exec s as = some (s', h')) :
    (sys P).Run (h ++ h') s' := hr.exec he

/-- A goroutine that has not begun begins a path. -/
theorem begin {P h s g p} (hr : (sys P).Run h s) (hp : p ∈ P) (ht : s.todo g = []) (hin : s.ins g = none) :
    (sys P).Run h { s with todo := upd s.todo g p } := by
  have e : (sys P).step s (.start g p) = some ({ s with todo := upd s.todo g p }, []) := by
    simp [sys, step, hp, ht, hin]
  simpa using hr.step e

/-- One goroutine gets to an access that it makes without the lock, then another to any. -/
theorem at_free {P p q p1 q1 p2 q2 k j} (hp : p ∈ P) (hq : q ∈ P) (hbp : bal .free p = true) (hbq : bal .free q = true)
    (ep : p = p1 ++ .acc k :: p2) (eq : q = q1 ++ .acc j :: q2) (hf : afterAll .free p1 = .free) (g d : Nat) (hgd : g ≠ d) :
    ∃ h s, (sys P).Run h s ∧ At s g k ∧ At s d j := by
  have r0 : (sys P).Run [] init := Lts.Run.init
  have r1 := begin (g := g) r0 hp rfl rfl
  obtain ⟨as, s1, h1, he, ht, hin, hh, -, ha⟩ := alone P g p1 (.acc k :: p2) .free { init with todo := upd init.todo g p }
    (by rw [← ep]; exact upd_same ..) rfl ⟨rfl, rfl⟩ (by rw [← ep]; exact hbp)
  have r2 := r1.exec he
  rw [hf] at hh
  have td : s1.todo d = [] := by rw [ha.todo d hgd.symm]; exact upd_of_ne _ _ hgd.symm
  have tin : s1.ins d = none := by rw [ha.ins d hgd.symm]; rfl
  have r3 := begin (g := d) r2 hq td tin
  obtain ⟨as', s2, h2, he', ht', hin', -, -, ha'⟩ := alone P d q1 (.acc j :: q2) .free
    { s1 with todo := upd s1.todo d q } (by rw [← eq]; exact upd_same ..) tin hh (by rw [← eq]; exact hbq)
  refine ⟨_, _, r3.exec he', ⟨?_, p2, ?_⟩, hin', q2, ht'⟩
  · rw [ha'.ins g hgd]; exact hin
  · rw [ha'.todo g hgd]; exact (upd_of_ne _ _ hgd).trans ht

/-- Two goroutines get to accesses that they make with the lock in shared mode. -/
theorem at_shared {P p q p1 q1 p2 q2 k j} (hp : p ∈ P) (hq : q ∈ P) (hbp : bal .free p = true) (hbq : bal .free q = true)
    (ep : p = p1 ++ .acc k :: p2) (eq : q = q1 ++ .acc j :: q2) (hf : afterAll .free p1 = .shared)
    (hf' : afterAll .free q1 = .shared) (g d : Nat) (hgd : g ≠ d) :
    ∃ h s, (sys P).Run h s ∧ At s g k ∧ At s d j := by
  rcases find_rlock p1 .free hf with ⟨h, -⟩ | ⟨a, b, e, hb⟩
  · cases h
  subst e
  rw [List.append_assoc] at ep
  have hfa : afterAll .free a = .free := by
    have := bal_append a _ .free (ep ▸ hbp)
    simp only [List.cons_append, bal, Bool.and_eq_true, decide_eq_true_eq] at this
    exact this.1
  have r0 : (sys P).Run [] init := Lts.Run.init
  have r1 := begin (g := g) r0 hp rfl rfl
  obtain ⟨as, s1, h1, he, ht, hin, hh, -, ha⟩ := alone P g a (.rlock :: b ++ .acc k :: p2) .free
    { init with todo := upd init.todo g p } (by rw [← ep]; exact upd_same ..) rfl ⟨rfl, rfl⟩ (by rw [← ep]; exact hbp)
  have r2 := r1.exec he
  rw [hfa] at hh
  have td : s1.todo d = [] := by rw [ha.todo d hgd.symm]; exact upd_of_ne _ _ hgd.symm
  have tin : s1.ins d = none := by rw [ha.ins d hgd.symm]; rfl
  have r3 := begin (g := d) r2 hq td tin
  obtain ⟨as', s2, h2, he', ht', hin', hh', -, ha'⟩ := alone P d q1 (.acc j :: q2) .free
    { s1 with todo := upd s1.todo d q } (by rw [← eq]; exact upd_same ..) tin hh (by rw [← eq]; exact hbq)
  rw [hf'] at hh'
  have r4 := r3.exec he'
  have hgt : s2.todo g = .rlock :: (b ++ .acc k :: p2) := by
    rw [ha'.todo g hgd]; exact (upd_of_ne _ _ hgd).trans ht
  have hgi : s2.ins g = none := by rw [ha'.ins g hgd]; exact hin
  have e5 : (sys P).step s2 (.run g) = some
      ({ s2 with readers := g :: s2.readers, todo := upd s2.todo g (b ++ .acc k :: p2) }, []) := by
    simp [sys, step, stepRun, hgi, hgt, hh'.1]
  have r5 := r4.step e5
  obtain ⟨cs, s3, h3, he3, ht3, hin3, ha3⟩ := alone_acc P g b (.acc k :: p2)
    { s2 with readers := g :: s2.readers, todo := upd s2.todo g (b ++ .acc k :: p2) } hb (upd_same ..) hgi
  refine ⟨_, _, r5.exec he3, ⟨hin3, p2, ht3⟩, ?_, q2, ?_⟩
  · rw [ha3.ins d hgd.symm]; exact hin'
  · rw [ha3.todo d hgd.symm]; exact (upd_of_ne _ _ hgd.symm).trans ht'

theorem race_of_clash {P} (hP : ∀ p ∈ P, bal .free p = true) (hc : Clash P) : ∃ h s, (sys P).Run h s ∧ Race h := by
  obtain ⟨p, hp, q, hq, ⟨m, k⟩, hx, ⟨n, j⟩, hy, hm, hw⟩ := hc
  obtain ⟨p1, p2, ep, fp⟩ := find_acc p .free _ hx
  obtain ⟨q1, q2, eq, fq⟩ := find_acc q .free _ hy
  dsimp only at ep eq fp fq hm hw
  have : ∃ h s, (sys P).Run h s ∧ At s 0 k ∧ At s 1 j := by
    cases m with
    | free => exact at_free hp hq (hP p hp) (hP q hq) ep eq fp 0 1 (by decide)
    | shared =>
      cases n with
      | free =>
        obtain ⟨h, s, hr, h1, h2⟩ := at_free hq hp (hP q hq) (hP p hp) eq ep fq 1 0 (by decide)
        exact ⟨h, s, hr, h2, h1⟩
      | shared => exact at_shared hp hq (hP p hp) (hP q hq) ep eq fp fq 0 1 (by decide)
      | excl => cases hm
    | excl =>
      cases n with
      | free =>
        obtain ⟨h, s, hr, h1, h2⟩ := at_free hq hp (hP q hq) (hP p hp) eq ep fq 1 0 (by decide)
        exact ⟨h, s, hr, h2, h1⟩
      | shared => cases hm
      | excl => cases hm
  obtain ⟨h, s, hr, h1, h2⟩ := this
  exact race_of_at hr (by decide) h1 h2 hw

theorem safe_iff {P} (hP : ∀ p ∈ P, bal .free p = true) : Safe P ↔ ¬ Clash P := by
  constructor
  · intro hs hc
    obtain ⟨h, s, hr, hh⟩ := race_of_clash hP hc
    exact hs h s hr hh
  · intro hc h s hr hh
    exact hc (clash_of_race hP hr hh)

/-! ### No deadlock -/

/-- Someone who holds the lock has something left to do. -/
theorem busy {P h s g} (hi : Inv P h s) (hm : mode s g ≠ .free) : s.todo g ≠ [] := by
  intro e
  have := hi.bal g
  rw [e] at this
  simp only [bal, decide_eq_true_eq] at this
  exact hm this

theorem holder_runs {P h s g} (hi : Inv P h s) (hm : mode s g ≠ .free) : ∃ s' evs, step P s (.run g) = some (s', evs) := by
  have hb := hi.bal g
  have ht := busy hi hm
  simp only [step, stepRun]
  split
  · exact ⟨_, _, rfl⟩
  · split <;> rename_i e
    · exact absurd e ht
    · rw [e] at hb; simp only [bal, Bool.and_eq_true, decide_eq_true_eq] at hb; exact absurd hb.1 hm
    · exact ⟨_, _, rfl⟩
    · rw [e] at hb; simp only [bal, Bool.and_eq_true, decide_eq_true_eq] at hb; exact absurd hb.1 hm
    · exact ⟨_, _, rfl⟩
    · exact ⟨_, _, rfl⟩

/-- If somebody has something left to do, somebody can go on. -/
theorem progress {P h s} (hi : Inv P h s) {g} (hg : s.todo g ≠ [] ∨ s.ins g ≠ none) :
    ∃ d s' evs, step P s (.run d) = some (s', evs) := by
  by_cases hw : s.writer = none
  · cases hrd : s.readers with
    | nil =>
      refine ⟨g, ?_⟩
      simp only [step, stepRun, hw, hrd]
      split
      · exact ⟨_, _, rfl⟩
      · rename_i e
        split
        · rename_i e'; rcases hg with h | h <;> contradiction
        all_goals first | exact ⟨_, _, rfl⟩ | (rw [if_pos (by simp)]; exact ⟨_, _, rfl⟩)
    | cons d r =>
      refine ⟨d, holder_runs hi ?_⟩
      simp [mode, hw, hrd]
  · obtain ⟨d, hd⟩ := Option.ne_none_iff_exists'.mp hw
    exact ⟨d, holder_runs hi (by simp [mode, hd])⟩

/-! ### Functions -/

/-- Two accesses, one of them a write, with locks that two goroutines can hold at once. -/
def hit (x y : Mode × Kind) : Bool := compat x.1 y.1 && (x.2 = .write || y.2 = .write)

def hits (a b : List (List Op)) : Bool := a.any fun p => b.any fun q => (accs .free p).any fun x => (accs .free q).any (hit x)

theorem safe_fns {F : Type} (paths : F → List (List Op)) (hb : ∀ f, ∀ p ∈ paths f, bal .free p = true) (fs : List F) :
    Safe (fs.flatMap paths) ↔ ∀ f ∈ fs, ∀ f' ∈ fs, hits (paths f) (paths f') = false := by
  rw [safe_iff]
  · constructor
    · intro hc f hf f' hf'
      rw [← Bool.not_eq_true]
      intro ht
      simp only [hits, List.any_eq_true, hit, Bool.and_eq_true, Bool.or_eq_true, decide_eq_true_eq] at ht
      obtain ⟨p, hp, q, hq, x, hx, y, hy, hm, hw⟩ := ht
      exact hc ⟨p, List.mem_flatMap.2 ⟨f, hf, hp⟩, q, List.mem_flatMap.2 ⟨f', hf', hq⟩, x, hx, y, hy, hm, hw⟩
    · rintro ha ⟨p, hp, q, hq, x, hx, y, hy, hm, hw⟩
      obtain ⟨f, hf, hp⟩ := List.mem_flatMap.1 hp
      obtain ⟨f', hf', hq⟩ := List.mem_flatMap.1 hq
      have := ha f hf f' hf'
      rw [← Bool.not_eq_true] at this
      apply this
      simp only [hits, List.any_eq_true, hit, Bool.and_eq_true, Bool.or_eq_true, decide_eq_true_eq]
      exact ⟨p, hp, q, hq, x, hx, y, hy, hm, hw⟩
  · intro p hp
    obtain ⟨f, -, hp⟩ := List.mem_flatMap.1 hp
    exact hb f p hp

/-- The usual shape: there are writers, and functions that do not exclude them. -/
theorem safe_iff_sets {F : Type} (paths : F → List (List Op)) (hb : ∀ f, ∀ p ∈ paths f, bal .free p = true)
    (W U : F → Prop) (hWU : ∀ f f', hits (paths f) (paths f') = true ↔ (W f ∧ U f') ∨ (W f' ∧ U f)) (fs : List F) :
    Safe (fs.flatMap paths) ↔ ¬ ((∃ f ∈ fs, W f) ∧ ∃ f ∈ fs, U f) := by
  rw [safe_fns paths hb]
  constructor
  · rintro ha ⟨⟨f, hf, hw⟩, f', hf', hu⟩
    have := ha f hf f' hf'
    rw [(hWU f f').2 (.inl ⟨hw, hu⟩)] at this
    cases this
  · intro hn f hf f' hf'
    rw [← Bool.not_eq_true, hWU]
    rintro (⟨h1, h2⟩ | ⟨h1, h2⟩)
    · exact hn ⟨⟨f, hf, h1⟩, f', hf', h2⟩
    · exact hn ⟨⟨f', hf', h1⟩, f, hf, h2⟩

end Braid.Maps
