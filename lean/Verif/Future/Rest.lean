import Verif.Lib.Total
import Verif.Future.InvT

/-
Every schedule of futures comes to rest (helper lemmas): a potential that every step lowers.
-/
namespace Braid.Future
variable {V : Type}

/-- Steps to come of a goroutine, with those of the callbacks it may start. -/
def Pc.pot : Pc V → Nat
  | .idle => 0
  | .thenCheck _ _ => 12
  | .thenLate _ _ => 11
  | .thenNew _ _ => 2
  | .thenAppend _ _ => 11
  | .unlock _ => 1
  | .compCheck _ _ => 5
  | .compSet _ _ => 4
  | .compClose _ _ => 3
  | .compSpawn _ rest => 9 * rest.length + 2
  | .ready => 8
  | .running => 7
  | .joining => 6

def Fut.pot (f : Fut V) : Nat := if f.done then 0 else 9 * f.cbs.length

/-- The sum over all goroutines. -/
def tot (N : Nat) (pc : Tid → Pc V) : Nat := total (fun u => (pc (.inl u)).pot) N + total (fun k => (pc (.inr k)).pot) N

def phi (N : Nat) (s : St V) : Nat := total (fun f => (s.fut f).pot) N + tot N s.pc

def tlt (N : Nat) : Tid → Prop
  | .inl u => u < N
  | .inr k => k < N

theorem tot_upd (N : Nat) (pc : Tid → Pc V) (t : Tid) (p : Pc V) (h : tlt N t) :
    tot N (upd pc t p) + (pc t).pot = tot N pc + p.pot := by
  cases t with
  | inl u =>
    have h1 := total_upd (fun u => pc (.inl u)) Pc.pot u p N h
    have h2 : (fun j => (upd pc (.inl u) p (.inl j)).pot) = fun j => (upd (fun u => pc (.inl u)) u p j).pot := by
      funext j; simp only [upd_apply, Sum.inl.injEq]
    have h3 : (fun j => (upd pc (.inl u) p (.inr j)).pot) = fun j => (pc (.inr j)).pot := by
      funext j; simp [upd_apply]
    simp only [tot, h2, h3]; omega
  | inr k =>
    have h1 := total_upd (fun u => pc (.inr u)) Pc.pot k p N h
    have h2 : (fun j => (upd pc (.inr k) p (.inr j)).pot) = fun j => (upd (fun u => pc (.inr u)) k p j).pot := by
      funext j; simp only [upd_apply, Sum.inr.injEq]
    have h3 : (fun j => (upd pc (.inr k) p (.inl j)).pot) = fun j => (pc (.inl j)).pot := by
      funext j; simp [upd_apply]
    simp only [tot, h2, h3]; omega

/-- The bound covers everything in use. -/
structure Bounded (N : Nat) (s : St V) : Prop where
  users : ∀ u, N ≤ u → s.pc (.inl u) = .idle
  tasks : s.tasks.length ≤ N
  futs : s.nfut ≤ N

theorem in_range {N : Nat} {s : St V} (A : InvA s) (b : Bounded N s) {t : Tid} (h : s.pc t ≠ .idle) : tlt N t := by
  cases t with
  | inl u =>
    rcases Nat.lt_or_ge u N with h1 | h1
    · exact h1
    · exact absurd (b.users u h1) h
  | inr k =>
    rcases Nat.lt_or_ge k s.tasks.length with h1 | h1
    · exact Nat.lt_of_lt_of_le h1 b.tasks
    · exact absurd (A.tl k h1) h

theorem tr_mono {s s' : St V} {evs : List (Ev V)} (ht : Tr s s' evs) : s.nfut ≤ s'.nfut ∧ s.tasks.length ≤ s'.tasks.length := by
  cases ht <;> simp [alloc, setPc, setFut, spawn]

theorem phi_setPc {N : Nat} (s : St V) {t : Tid} (p : Pc V) (h : tlt N t) :
    phi N (setPc s t p) + (s.pc t).pot = phi N s + p.pot := by
  have := tot_upd N s.pc t p h
  simp only [phi, setPc]; omega

theorem phi_setFut {N : Nat} (s : St V) {f : Nat} (x : Fut V) (h : f < N) :
    phi N (setFut s f x) + (s.fut f).pot = phi N s + x.pot := by
  have := total_upd s.fut Fut.pot f x N h
  simp only [phi, setFut]; omega

theorem phi_spawn {N : Nat} {s : St V} (A : InvA s) (k : Task V) (h : s.tasks.length < N) :
    phi N (spawn s k) = phi N s + 8 := by
  have := tot_upd N s.pc (.inr s.tasks.length) .ready h
  rw [A.tl _ (Nat.le_refl _)] at this
  simp only [Pc.pot] at this
  simp only [phi, spawn]; omega

theorem phi_alloc {N : Nat} {s : St V} (A : InvA s) : phi N (alloc s) = phi N s := by
  rw [alloc_eq A]; rfl

theorem spawn_pc {s : St V} (A : InvA s) (k : Task V) {t : Tid} (h : s.pc t ≠ .idle) : (spawn s k).pc t = s.pc t := by
  simp only [spawn]
  rw [upd_of_ne]
  rintro rfl
  exact h (A.tl _ (Nat.le_refl _))

theorem phi_step {N : Nat} {h : List (Ev V)} {s s' : St V} {a : Act V} {evs : List (Ev V)} (hr : (sys V).Run h s)
    (b : Bounded N s) (b' : Bounded N s') (hs : step s a = some (s', evs)) :
    1 + phi N s' ≤ phi N s + 13 * (if outside a then 1 else 0) := by
  have I := run_inv hr
  have A := I.A
  have rng : ∀ {t}, s.pc t ≠ .idle → tlt N t := fun h => in_range A b h
  have flt : ∀ {t f}, (s.pc t).inside = some f → f < N := fun h => Nat.lt_of_lt_of_le (A.inb _ _ h) b.futs
  cases a with
  | new => cases hs; have := phi_alloc (N := N) A; simp only [alloc] at this; simp [outside]; omega
  | then_ u f =>
    simp only [step] at hs
    split at hs
    · rename_i hf
      split at hs
      · rename_i hp hl; cases hs
        have hu : tlt N (.inl u) := by
          rcases Nat.lt_or_ge u N with h1 | h1
          · exact h1
          · have := b'.users u h1; simp [setPc] at this
        have h1 := phi_setFut (N := N) { s with nreg := s.nreg + 1 } { s.fut f with lock := some (.inl u) }
          (Nat.lt_of_lt_of_le hf b.futs)
        have h2 := phi_setPc (setFut { s with nreg := s.nreg + 1 } f { s.fut f with lock := some (.inl u) })
          (.thenCheck f s.nreg) hu
        have h3 : phi N { s with nreg := s.nreg + 1 } = phi N s := rfl
        simp only [setFut] at h1 h2
        simp only [hp, Pc.pot, Fut.pot] at h1 h2
        simp only [setFut, outside, if_true]
        omega
      · cases hs
    · cases hs
  | complete u f v =>
    simp only [step] at hs
    split at hs
    · rename_i hf
      split at hs
      · rename_i hp hl; cases hs
        have hu : tlt N (.inl u) := by
          rcases Nat.lt_or_ge u N with h1 | h1
          · exact h1
          · have := b'.users u h1; simp [setPc] at this
        have h1 := phi_setFut (N := N) s { s.fut f with lock := some (.inl u) } (Nat.lt_of_lt_of_le hf b.futs)
        have h2 := phi_setPc (setFut s f { s.fut f with lock := some (.inl u) }) (.compCheck f v) hu
        simp only [setFut] at h1 h2
        simp only [hp, Pc.pot, Fut.pot] at h1 h2
        simp only [setFut, outside, if_true]
        omega
      · cases hs
    · cases hs
  | isCompleted f => cases hs; simp [outside]; omega
  | next t =>
    have ho : outside (.next t : Act V) = false := rfl
    simp only [ho]
    simp only [step, stepNext] at hs
    split at hs
    case h_1 => cases hs
    case h_2 f r hp =>
      have hi := rng (t := t) (by simp [hp])
      split at hs
      · cases hs
        have := phi_setPc s (.thenLate f r) hi; simp only [hp, Pc.pot] at this; simp; omega
      · cases hs
        have := phi_setPc s (.thenAppend f r) hi; simp only [hp, Pc.pot] at this; simp; omega
    case h_3 f r hp =>
      have hi := rng (t := t) (by simp [hp])
      split at hs
      · rename_i v hv; cases hs
        have h1 := phi_spawn (N := N) A ⟨r, v, none⟩ (by have := b'.tasks; simp [setPc, spawn] at this; omega)
        have h2 := phi_setPc (spawn s ⟨r, v, none⟩) (.thenNew f r) hi
        rw [spawn_pc A _ (by simp [hp])] at h2
        simp only [hp, Pc.pot] at h2; simp; omega
      · cases hs
    case h_4 f r hp =>
      have hi := rng (t := t) (by simp [hp])
      cases hs
      have h1 := phi_alloc (N := N) A
      have h2 := phi_setPc (alloc s) (.unlock f) hi
      have h3 : (alloc s).pc t = s.pc t := rfl
      rw [h3] at h2
      simp only [hp, Pc.pot] at h2
      simp only [alloc] at h1 h2; simp; omega
    case h_5 f r hp =>
      have hi := rng (t := t) (by simp [hp])
      have hf := flt (t := t) (f := f) (by simp [hp, Pc.inside])
      cases hs
      have hf' : f < s.nfut := A.inb t f (by simp [hp, Pc.inside])
      have h1 := phi_alloc (N := N) A
      have h2 := phi_setFut (N := N) (alloc s) { s.fut f with cbs := (s.fut f).cbs ++ [(r, s.nfut)] } hf
      have h3 := phi_setPc (setFut (alloc s) f { s.fut f with cbs := (s.fut f).cbs ++ [(r, s.nfut)] }) (.unlock f) hi
      have h4 : (setFut (alloc s) f { s.fut f with cbs := (s.fut f).cbs ++ [(r, s.nfut)] }).pc t = s.pc t := rfl
      have h5 : (alloc s).fut f = s.fut f := by simp only [alloc]; rw [upd_of_ne _ _ (by omega)]
      rw [h4] at h3
      rw [h5] at h2
      simp only [hp, Pc.pot] at h3
      simp only [Fut.pot, List.length_append, List.length_singleton] at h2
      simp only [alloc] at h1 h2 h3
      simp only [Bool.false_eq_true, if_false]
      split at h2 <;> omega
    case h_6 f hp =>
      have hi := rng (t := t) (by simp [hp])
      have hf := flt (t := t) (f := f) (by simp [hp, Pc.inside])
      cases hs
      have h2 := phi_setFut (N := N) s { s.fut f with lock := none } hf
      have h3 := phi_setPc (setFut s f { s.fut f with lock := none }) .idle hi
      have h4 : (setFut s f { s.fut f with lock := none }).pc t = s.pc t := rfl
      rw [h4] at h3
      simp only [hp, Pc.pot] at h3
      simp only [Fut.pot] at h2
      simp; omega
    case h_7 f v hp =>
      have hi := rng (t := t) (by simp [hp])
      split at hs
      · cases hs
        have := phi_setPc s (.unlock f) hi; simp only [hp, Pc.pot] at this; simp; omega
      · cases hs
        have := phi_setPc s (.compSet f v) hi; simp only [hp, Pc.pot] at this; simp; omega
    case h_8 f v hp =>
      have hi := rng (t := t) (by simp [hp])
      have hf := flt (t := t) (f := f) (by simp [hp, Pc.inside])
      cases hs
      have h2 := phi_setFut (N := N) s { s.fut f with result := some v } hf
      have h3 := phi_setPc (setFut s f { s.fut f with result := some v }) (.compClose f v) hi
      have h4 : (setFut s f { s.fut f with result := some v }).pc t = s.pc t := rfl
      rw [h4] at h3
      simp only [hp, Pc.pot] at h3
      simp only [Fut.pot] at h2
      simp; omega
    case h_9 f v hp =>
      have hi := rng (t := t) (by simp [hp])
      have hf := flt (t := t) (f := f) (by simp [hp, Pc.inside])
      cases hs
      have hd := (I.B.v5 f v (by rw [view_pc A (t := t) (by simp [hp, Pc.inside]), hp])).1
      have h2 := phi_setFut (N := N) s { s.fut f with done := true } hf
      have h3 := phi_setPc (setFut s f { s.fut f with done := true }) (.compSpawn f (s.fut f).cbs) hi
      have h4 : (setFut s f { s.fut f with done := true }).pc t = s.pc t := rfl
      have h5 : (s.fut f).done = false := hd
      rw [h4] at h3
      simp only [hp, Pc.pot] at h3
      simp only [Fut.pot, h5] at h2
      simp at h2 ⊢; omega
    case h_10 f hp =>
      have hi := rng (t := t) (by simp [hp])
      have hf := flt (t := t) (f := f) (by simp [hp, Pc.inside])
      cases hs
      have h2 := phi_setFut (N := N) s { s.fut f with cbs := [] } hf
      have h3 := phi_setPc (setFut s f { s.fut f with cbs := [] }) (.unlock f) hi
      have h4 : (setFut s f { s.fut f with cbs := [] }).pc t = s.pc t := rfl
      rw [h4] at h3
      simp only [hp, Pc.pot, List.length_nil] at h3
      have h6 : Fut.pot { s.fut f with cbs := [] } = 0 := by simp [Fut.pot]
      rw [h6] at h2
      dsimp only at h2 h3 ⊢
      simp; omega
    case h_11 f r c rest hp =>
      have hi := rng (t := t) (by simp [hp])
      split at hs
      · rename_i v hv; cases hs
        have h1 := phi_spawn (N := N) A ⟨r, v, some c⟩ (by have := b'.tasks; simp [setPc, spawn] at this; omega)
        have h2 := phi_setPc (spawn s ⟨r, v, some c⟩) (.compSpawn f rest) hi
        rw [spawn_pc A _ (by simp [hp])] at h2
        simp only [hp, Pc.pot, List.length_cons] at h2; simp; omega
      · cases hs
    case h_12 hp =>
      have hi := rng (t := t) (by simp [hp])
      split at hs
      · cases hs
      · split at hs
        · cases hs
          have := phi_setPc s .running hi; simp only [hp, Pc.pot] at this; simp; omega
        · cases hs
    case h_13 hp =>
      have hi := rng (t := t) (by simp [hp])
      split at hs
      · cases hs
      · split at hs
        · split at hs
          · cases hs
            have := phi_setPc s .idle hi; simp only [hp, Pc.pot] at this; simp; omega
          · cases hs
            have := phi_setPc s .joining hi; simp only [hp, Pc.pot] at this; simp; omega
        · cases hs
    case h_14 hp =>
      have hi := rng (t := t) (by simp [hp])
      split at hs
      · cases hs
      · rename_i k
        split at hs
        · rename_i r v c hk
          split at hs
          · rename_i hl; cases hs
            have hf := Nat.lt_of_lt_of_le (A.taskb _ _ _ hk rfl) b.futs
            have h2 := phi_setFut (N := N) s { s.fut c with lock := some (.inr k) } hf
            have h3 := phi_setPc (setFut s c { s.fut c with lock := some (.inr k) }) (.compCheck c v) hi
            have h4 : (setFut s c { s.fut c with lock := some (.inr k) }).pc (.inr k) = s.pc (.inr k) := rfl
            rw [h4] at h3
            simp only [hp, Pc.pot] at h3
            simp only [Fut.pot] at h2
            simp; omega
          · cases hs
        · cases hs

/-! ### Executions -/

def actLt (N : Nat) : Act V → Prop
  | .then_ u _ => u < N
  | .complete u _ _ => u < N
  | _ => True

theorem users_step {N : Nat} {s s' : St V} {a : Act V} {evs : List (Ev V)}
    (hN : actLt N a) (hu : ∀ u, N ≤ u → s.pc (.inl u) = .idle) (hs : step s a = some (s', evs)) :
    ∀ u, N ≤ u → s'.pc (.inl u) = .idle := by
  have ht := step_tr hs
  intro u h
  have h0 := hu u h
  cases a with
  | new => cases hs; exact h0
  | isCompleted f => cases hs; exact h0
  | then_ w f =>
    simp only [step] at hs
    split at hs
    · split at hs
      · cases hs
        simp only [actLt] at hN
        simp only [setPc, setFut]; rw [upd_of_ne _ _ (by simp; omega)]; exact h0
      · cases hs
    · cases hs
  | complete w f v =>
    simp only [step] at hs
    split at hs
    · split at hs
      · cases hs
        simp only [actLt] at hN
        simp only [setPc, setFut]; rw [upd_of_ne _ _ (by simp; omega)]; exact h0
      · cases hs
    · cases hs
  | next t =>
    by_cases htu : t = .inl u
    · subst htu; simp [step, stepNext, h0] at hs
    · clear ht
      simp only [step, stepNext] at hs
      (repeat' split at hs) <;> (try cases hs) <;> (try simp only [setPc, setFut, spawn]) <;> grind [upd_apply]

theorem phi_exec {N : Nat} : ∀ {as : List (Act V)} {h : List (Ev V)} {s s' : St V} {evs : List (Ev V)},
    (sys V).Run h s → (∀ a ∈ as, actLt N a) → (∀ u, N ≤ u → s.pc (.inl u) = .idle) →
    (sys V).exec s as = some (s', evs) → s'.tasks.length ≤ N → s'.nfut ≤ N →
    (s.tasks.length ≤ N ∧ s.nfut ≤ N) ∧ as.length + phi N s' ≤ phi N s + 13 * as.countP outside := by
  intro as
  induction as with
  | nil =>
    intro h s s' evs _ _ _ he h1 h2
    simp [Lts.exec] at he; obtain ⟨rfl, rfl⟩ := he
    exact ⟨⟨h1, h2⟩, by simp⟩
  | cons a as ih =>
    intro h s s' evs hr hN hu he h1 h2
    simp only [Lts.exec] at he
    split at he
    · cases he
    · rename_i s1 e1 hs
      split at he
      · cases he
      · rename_i s2 e2 he2
        simp only [Option.some.injEq, Prod.mk.injEq] at he; obtain ⟨rfl, rfl⟩ := he
        have hu1 := users_step (hN a (by simp)) hu hs
        obtain ⟨⟨h3, h4⟩, h5⟩ := ih (hr.step hs) (fun b hb => hN b (by simp [hb])) hu1 he2 h1 h2
        have hm := tr_mono (step_tr hs)
        have h6 := phi_step hr ⟨hu, by omega, by omega⟩ ⟨hu1, h3, h4⟩ hs
        refine ⟨⟨by omega, by omega⟩, ?_⟩
        simp only [List.length_cons, List.countP_cons]
        omega

theorem actLt_exists (as : List (Act V)) : ∃ N, ∀ a ∈ as, actLt N a := by
  induction as with
  | nil => exact ⟨0, by simp⟩
  | cons a as ih =>
    obtain ⟨N, hN⟩ := ih
    have mono : ∀ (b : Act V) {m n : Nat}, m ≤ n → actLt m b → actLt n b := by
      intro b m n hmn hb
      cases b <;> simp only [actLt] at * <;> omega
    have one : ∃ M, actLt M a := by
      cases a with
      | then_ u f => exact ⟨u + 1, Nat.lt_succ_self u⟩
      | complete u f v => exact ⟨u + 1, Nat.lt_succ_self u⟩
      | _ => exact ⟨0, trivial⟩
    obtain ⟨M, hM⟩ := one
    refine ⟨N + M, fun b hb => ?_⟩
    rcases List.mem_cons.1 hb with rfl | hb
    · exact mono _ (by omega) hM
    · exact mono _ (by omega) (hN b hb)

theorem rest_bounded {as : List (Act V)} {h : List (Ev V)} {s : St V} (he : (sys V).exec (init V) as = some (s, h)) :
    as.length ≤ 13 * as.countP outside := by
  obtain ⟨N, hN⟩ := actLt_exists as
  have mono : ∀ (b : Act V) {m n : Nat}, m ≤ n → actLt m b → actLt n b := by
    intro b m n hmn hb
    cases b <;> simp only [actLt] at * <;> omega
  have h1 := phi_exec (N := N + s.tasks.length + s.nfut) (.init (M := sys V)) (fun a ha => mono a (by omega) (hN a ha))
    (fun u _ => rfl) he (by omega) (by omega)
  have h2 : phi (N + s.tasks.length + s.nfut) (sys V).init = 0 := by
    simp [sys, init, phi, tot, newFut, Fut.pot, Pc.pot, total_zero]
  omega

/-- A goroutine can go on unless it waits for a mutex to complete the next future. -/
theorem can_go {h : List (Ev V)} {s : St V} (hr : (sys V).Run h s) (t : Tid) (hp : s.pc t ≠ .idle) :
    (∃ s' evs, (sys V).step s (.next t) = some (s', evs)) ∨
      ((s.pc t).task = true ∧ ∃ c t', t' ≠ t ∧ (s.fut c).lock = some t' ∧ (s.pc t').task = false) := by
  have I := run_inv hr
  have hv : ∀ f p, s.pc t = p → p.inside = some f → (view s f).pc = p := by
    intro f p h1 h2; rw [← h1] at h2 ⊢; exact view_pc I.A h2
  have htask : (s.pc t).task = true → ∃ k tk, t = .inr k ∧ s.tasks[k]? = some tk := by
    intro h1
    cases t with
    | inl u => rw [I.A.user u] at h1; cases h1
    | inr k =>
      cases hk : s.tasks[k]? with
      | none =>
        have := I.A.tl k (List.getElem?_eq_none_iff.1 hk)
        exact absurd this hp
      | some tk => exact ⟨k, tk, rfl, hk⟩
  show (∃ s' evs, stepNext s t = some (s', evs)) ∨ _
  unfold stepNext
  cases hpc : s.pc t with
  | idle => exact absurd hpc hp
  | thenCheck f r => left; dsimp only; split <;> exact ⟨_, _, rfl⟩
  | thenLate f r =>
    left
    obtain ⟨v, h1⟩ := I.B.v2 f (I.B.v8 f r (hv f _ hpc rfl))
    have h1 : (s.fut f).result = some v := h1
    simp only [h1]; exact ⟨_, _, rfl⟩
  | thenNew f r => exact Or.inl ⟨_, _, rfl⟩
  | thenAppend f r => exact Or.inl ⟨_, _, rfl⟩
  | unlock f => exact Or.inl ⟨_, _, rfl⟩
  | compCheck f v => left; dsimp only; split <;> exact ⟨_, _, rfl⟩
  | compSet f v => exact Or.inl ⟨_, _, rfl⟩
  | compClose f v => exact Or.inl ⟨_, _, rfl⟩
  | compSpawn f rest =>
    left
    cases rest with
    | nil => exact ⟨_, _, rfl⟩
    | cons x rest =>
      obtain ⟨v, h1⟩ := I.B.v2 f (I.B.v6 f _ (hv f _ hpc rfl))
      have h1 : (s.fut f).result = some v := h1
      simp only [h1]; exact ⟨_, _, rfl⟩
  | ready =>
    left
    obtain ⟨k, tk, rfl, hk⟩ := htask (by rw [hpc]; rfl)
    simp only [hk]; exact ⟨_, _, rfl⟩
  | running =>
    left
    obtain ⟨k, tk, rfl, hk⟩ := htask (by rw [hpc]; rfl)
    simp only [hk]; split <;> exact ⟨_, _, rfl⟩
  | joining =>
    obtain ⟨k, tk, rfl, hk⟩ := htask (by rw [hpc]; rfl)
    cases tk with
    | mk r v c =>
      cases c with
      | none =>
        exfalso
        exact I.T.joinable k _ hk hpc rfl
      | some c =>
        cases hl : (s.fut c).lock with
        | none => left; simp only [hk, hl]; exact ⟨_, _, rfl⟩
        | some t' =>
          right
          have hi := (I.A.lk t' c).2 hl
          refine ⟨rfl, c, t', ?_, hl, ?_⟩
          · rintro rfl; rw [hpc] at hi; cases hi
          · cases h : s.pc t' <;> simp [h, Pc.inside] at hi <;> rfl

end Braid.Future
