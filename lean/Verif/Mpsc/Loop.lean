import Batteries.Data.List.Perm
import Verif.Mpsc.Drain
import Verif.Lib.Total

/-
Every schedule of the producers and the consumer loop comes to rest (helper lemmas for Verif/Mpsc/Props.lean): a potential
that every step lowers.
-/
namespace Braid.Mpsc
variable {V : Type}

/-- Steps to come of a producer, with 3 for the round of the consumer it may cause. -/
def PPc.pot : PPc → Nat
  | .idle => 0
  | .alloc _ => 7
  | .link _ _ => 6
  | .count _ => 5
  | .send _ _ => 4

theorem pot_idle : PPc.pot .idle = 0 := rfl
theorem pot_alloc (n : Nat) : PPc.pot (.alloc n) = 7 := rfl
theorem pot_link (a n : Nat) : PPc.pot (.link a n) = 6 := rfl
theorem pot_count (n : Nat) : PPc.pot (.count n) = 5 := rfl
theorem pot_send (n : Nat) (c : Int) : PPc.pot (.send n c) = 4 := rfl

/-- Steps to come of the consumer, not counting those after it has loaded a pointer. -/
def CPc.pot : CPc V → Nat
  | .idle => 0
  | .ready => 2
  | .load => 1
  | .take _ => 0
  | .dec _ _ => 5
  | .send _ _ _ => 4

def tokPot : Option Int → Nat
  | none => 0
  | some _ => 3

def pot (N : Nat) (s : St V) : Nat := total (fun p => (s.prods p).pot) N + s.cons.pot + tokPot s.tok

def Act.isPush : Act V → Bool
  | .push _ _ => true
  | _ => false

def Act.lt (N : Nat) : Act V → Prop
  | .push p _ => p < N
  | .prod p => p < N
  | _ => True

theorem signal_pot (t : Option Int) (c : Int) : tokPot (signal t c) ≤ tokPot t + 3 := by
  unfold signal; split
  · split <;> simp [tokPot]
  · omega

theorem pot_step {h : List (Ev V)} {s s' : St V} {a : Act V} {evs : List (Ev V)} {N : Nat} (hr : (sys V).Run h s)
    (hN : a.lt N) (hs : (loopSys V).step s a = some (s', evs)) :
    1 + pot N s' + 6 * s.cons.inflight.length ≤
      pot N s + 8 * (if a.isPush then 1 else 0) + 6 * ((popped evs).length + s'.cons.inflight.length) := by
  obtain ⟨order, k, pend, A, -, -⟩ := run_inv hr
  have hf := A.inflightSome
  cases a with
  | push p x =>
    simp only [loopSys, step] at hs
    split at hs
    · rename_i hp
      simp only [Option.some.injEq, Prod.mk.injEq] at hs; obtain ⟨rfl, rfl⟩ := hs
      have := total_upd s.prods PPc.pot p (.alloc s.fresh) N hN
      simp only [hp, pot_idle, pot_alloc] at this
      simp only [pot, Act.isPush, popped, List.length_nil]; simp; omega
    · cases hs
  | prod p =>
    simp only [loopSys, step, stepProd] at hs
    have ht := fun v => total_upd s.prods PPc.pot p v N hN
    split at hs
    · cases hs
    all_goals
      rename_i hp
      simp only [Option.some.injEq, Prod.mk.injEq] at hs; obtain ⟨rfl, rfl⟩ := hs
      simp only [hp] at ht
    · have := ht (.link s.head ‹Nat›); simp only [pot_alloc, pot_link] at this
      simp only [pot, Act.isPush, popped, List.length_nil]; simp; omega
    · have := ht (.count ‹Nat›); simp only [pot_idle, pot_alloc, pot_link, pot_count, pot_send] at this
      simp only [pot, Act.isPush, popped, List.length_nil]; simp; omega
    · rename_i n; have := ht (.send n (s.count + 1)); simp only [pot_idle, pot_alloc, pot_link, pot_count, pot_send] at this
      simp only [pot, Act.isPush, popped, List.length_nil]; simp; omega
    · rename_i n c; have := ht .idle; simp only [pot_idle, pot_alloc, pot_link, pot_count, pot_send] at this
      have := signal_pot s.tok c
      simp only [pot, Act.isPush, popped, List.length_nil]; simp; omega
  | recv =>
    simp only [loopSys, step] at hs
    split at hs
    · rename_i hc ht
      simp only [Option.some.injEq, Prod.mk.injEq] at hs; obtain ⟨rfl, rfl⟩ := hs
      simp [pot, hc, ht, CPc.pot, tokPot, CPc.inflight, Act.isPush, popped]; omega
    · cases hs
  | pop =>
    simp only [loopSys, step] at hs
    cases hc : s.cons <;> rw [hc] at hs <;> first
      | (cases hs; done)
      | (simp only [Option.some.injEq, Prod.mk.injEq] at hs; obtain ⟨rfl, rfl⟩ := hs
         simp [pot, hc, CPc.pot, CPc.inflight, Act.isPush, popped]; omega)
  | cons =>
    simp only [loopSys, step, stepCons] at hs
    split at hs
    · cases hs
    · cases hs
    · rename_i hc
      split at hs <;> (simp only [Option.some.injEq, Prod.mk.injEq] at hs; obtain ⟨rfl, rfl⟩ := hs) <;>
        simp [pot, hc, CPc.pot, CPc.inflight, Act.isPush, popped] <;> omega
    · rename_i n hc
      simp only [Option.some.injEq, Prod.mk.injEq] at hs; obtain ⟨rfl, rfl⟩ := hs
      have hk := A.take n hc
      rw [chain_get_succ] at hk
      obtain ⟨e, he, rfl⟩ := Option.map_eq_some_iff.1 hk
      have hv := A.vals k e (Nat.le_refl _) he
      simp [pot, hc, hv, CPc.pot, CPc.inflight, Act.isPush, popped]; omega
    · rename_i n v hc
      simp only [Option.some.injEq, Prod.mk.injEq] at hs; obtain ⟨rfl, rfl⟩ := hs
      simp [pot, hc, CPc.pot, CPc.inflight, Act.isPush, popped]; omega
    · rename_i n v c hc
      simp only [Option.some.injEq, Prod.mk.injEq] at hs; obtain ⟨rfl, rfl⟩ := hs
      have := signal_pot s.tok c
      cases v with
      | none => exact absurd rfl (hf.2 n _ c hc)
      | some x => simp [pot, hc, CPc.pot, CPc.inflight, Act.isPush, popped]; omega

theorem loop_step {s s' : St V} {a : Act V} {evs : List (Ev V)} (hs : (loopSys V).step s a = some (s', evs)) :
    (sys V).step s a = some (s', evs) := by
  simp only [loopSys] at hs
  split at hs
  · cases hs
  · exact hs

theorem loop_run {h : List (Ev V)} {s : St V} (hr : (loopSys V).Run h s) : (sys V).Run h s := by
  induction hr with
  | init => exact .init
  | step _ hs ih => exact ih.step (loop_step hs)

theorem pot_exec {N : Nat} : ∀ {as : List (Act V)} {h : List (Ev V)} {s s' : St V} {evs : List (Ev V)}, (sys V).Run h s →
    (∀ a ∈ as, a.lt N) → (loopSys V).exec s as = some (s', evs) →
    as.length + pot N s' + 6 * s.cons.inflight.length ≤
      pot N s + 8 * as.countP Act.isPush + 6 * ((popped evs).length + s'.cons.inflight.length) := by
  intro as
  induction as with
  | nil => intro h s s' evs _ _ he; simp [Lts.exec] at he; obtain ⟨rfl, rfl⟩ := he; simp [popped]
  | cons a as ih =>
    intro h s s' evs hr hN he
    simp only [Lts.exec] at he
    split at he
    · cases he
    · rename_i s1 e1 hs
      split at he
      · cases he
      · rename_i s2 e2 he2
        simp only [Option.some.injEq, Prod.mk.injEq] at he; obtain ⟨rfl, rfl⟩ := he
        have h1 := pot_step hr (hN a (by simp)) hs
        have h2 := ih (hr.step (loop_step hs)) (fun b hb => hN b (by simp [hb])) he2
        rw [popped_append]
        simp only [List.length_cons, List.countP_cons, List.length_append]
        omega

/-- The push calls of a history. -/
def invIds : List (Ev V) → List Nat
  | [] => []
  | .pushInv _ id _ :: h => id :: invIds h
  | _ :: h => invIds h

theorem invIds_append (h h' : List (Ev V)) : invIds (h ++ h') = invIds h ++ invIds h' := by
  induction h with
  | nil => rfl
  | cons e h ih => cases e <;> simp [invIds, ih]

theorem mem_invIds {h : List (Ev V)} {p id : Nat} {x : V} (hm : Ev.pushInv p id x ∈ h) : id ∈ invIds h := by
  induction h with
  | nil => cases hm
  | cons e h ih =>
    rcases List.mem_cons.1 hm with rfl | hm
    · simp [invIds]
    · have := ih hm; cases e <;> simp [invIds, this]

theorem invIds_step {s s' : St V} {a : Act V} {evs : List (Ev V)} (hs : (sys V).step s a = some (s', evs)) :
    (invIds evs).length = if a.isPush then 1 else 0 := by
  cases a with
  | push p x =>
    simp only [sys, step] at hs
    split at hs
    · injection hs with hs; injection hs with _ h2; subst h2; rfl
    · cases hs
  | prod p =>
    simp only [sys, step, stepProd] at hs
    split at hs
    · cases hs
    all_goals (injection hs with hs; injection hs with _ h2; subst h2; rfl)
  | recv =>
    simp only [sys, step] at hs
    split at hs
    · injection hs with hs; injection hs with _ h2; subst h2; rfl
    · cases hs
  | pop =>
    simp only [sys, step] at hs
    split at hs
    · injection hs with hs; injection hs with _ h2; subst h2; rfl
    · injection hs with hs; injection hs with _ h2; subst h2; rfl
    · cases hs
  | cons =>
    simp only [sys, step, stepCons] at hs
    repeat' split at hs
    all_goals first
      | (cases hs; done)
      | (injection hs with hs; injection hs with _ h2; subst h2; rfl)

theorem invIds_exec : ∀ {as : List (Act V)} {s s' : St V} {evs : List (Ev V)},
    (loopSys V).exec s as = some (s', evs) → (invIds evs).length = as.countP Act.isPush := by
  intro as
  induction as with
  | nil => intro s s' evs he; simp [Lts.exec] at he; obtain ⟨rfl, rfl⟩ := he; rfl
  | cons a as ih =>
    intro s s' evs he
    simp only [Lts.exec] at he
    split at he
    · cases he
    · rename_i s1 e1 hs
      split at he
      · cases he
      · rename_i s2 e2 he2
        simp only [Option.some.injEq, Prod.mk.injEq] at he; obtain ⟨rfl, rfl⟩ := he
        rw [invIds_append, List.length_append, invIds_step (loop_step hs), ih he2, List.countP_cons]
        omega

theorem popped_le {h : List (Ev V)} {s : St V} (hr : (sys V).Run h s) :
    (popped h).length + s.cons.inflight.length ≤ (invIds h).length := by
  obtain ⟨order, k, pend, A, B, -⟩ := run_inv hr
  have h1 := congrArg List.length B.pops
  rw [List.length_append, List.length_take] at h1
  have hn : (order.map Prod.fst).Nodup := by
    have := A.nodup; rw [chain, List.nodup_cons] at this; exact this.2
  have hsub : order.map Prod.fst ⊆ invIds h := by
    intro id hid
    obtain ⟨e, he, rfl⟩ := List.mem_map.1 hid
    obtain ⟨p, hp⟩ := B.called e.1 e.2 he
    exact mem_invIds hp
  have h2 := (List.subperm_of_subset hn hsub).length_le
  rw [List.length_map] at h2
  omega

theorem lt_exists (as : List (Act V)) : ∃ N, ∀ a ∈ as, a.lt N := by
  induction as with
  | nil => exact ⟨0, by simp⟩
  | cons a as ih =>
    obtain ⟨N, hN⟩ := ih
    have mono : ∀ (b : Act V) {m n : Nat}, m ≤ n → b.lt m → b.lt n := by
      intro b m n hmn hb
      cases b <;> simp only [Act.lt] at * <;> omega
    have one : ∃ M, a.lt M := by
      cases a with
      | push p x => exact ⟨p + 1, Nat.lt_succ_self p⟩
      | prod p => exact ⟨p + 1, Nat.lt_succ_self p⟩
      | _ => exact ⟨0, trivial⟩
    obtain ⟨M, hM⟩ := one
    refine ⟨N + M, fun b hb => ?_⟩
    rcases List.mem_cons.1 hb with rfl | hb
    · exact mono _ (by omega) hM
    · exact mono _ (by omega) (hN b hb)

theorem loop_bounded {as : List (Act V)} {h : List (Ev V)} {s : St V}
    (he : (loopSys V).exec (init V) as = some (s, h)) : as.length ≤ 14 * as.countP Act.isPush := by
  obtain ⟨N, hN⟩ := lt_exists as
  have h1 := pot_exec (N := N) (.init (M := sys V)) hN he
  have h2 := popped_le (loop_run (Lts.run_of_exec he))
  have h3 := invIds_exec he
  have h4 : pot N (init V) = 0 := by
    simp [pot, init, PPc.pot, CPc.pot, tokPot, total_zero]
  have h5 : (sys V).init = init V := rfl
  rw [h5, h4] at h1
  have : (init V).cons.inflight.length = 0 := rfl
  omega

end Braid.Mpsc
