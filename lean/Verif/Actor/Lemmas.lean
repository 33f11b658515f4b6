import Verif.Actor.Spec
import Verif.Mpsc.Props

/-
What the operations of the queue do to the program counters of its users.
-/
namespace Braid.Mpsc
variable {V : Type}

/-- The consumer is inside `Pop`. -/
def CPc.busy : CPc V → Prop
  | .idle => False
  | .ready => False
  | _ => True

theorem step_push {s s' : St V} {p : Nat} {x : V} {evs : List (Ev V)}
    (h : step s (.push p x) = some (s', evs)) :
    evs = [.pushInv p s.fresh x] ∧ s.prods p = .idle ∧ (s'.prods p).id? = some s.fresh ∧
    (∀ q, q ≠ p → s'.prods q = s.prods q) ∧ s'.cons = s.cons ∧ s'.tail = s.tail := by
  simp only [step] at h
  split at h
  · rename_i hp
    cases h
    exact ⟨rfl, hp, by simp [PPc.id?], fun q hq => by simp [upd_of_ne _ _ hq], rfl, rfl⟩
  · cases h

theorem step_prod {s s' : St V} {p : Nat} {evs : List (Ev V)}
    (h : step s (.prod p) = some (s', evs)) :
    (∀ q, q ≠ p → s'.prods q = s.prods q) ∧ s'.cons = s.cons ∧ s'.tail = s.tail ∧
    ((evs = [] ∧ (s'.prods p).id? = (s.prods p).id?) ∨
     (∃ id, evs = [.pushRet id] ∧ (s.prods p).id? = some id ∧ s'.prods p = .idle)) := by
  simp only [step, stepProd] at h
  split at h
  · cases h
  all_goals
    rename_i hp
    cases h
    refine ⟨fun q hq => by simp [upd_of_ne _ _ hq], rfl, rfl, ?_⟩
    simp [hp, PPc.id?]

theorem step_pop {s s' : St V} {evs : List (Ev V)} (h : step s .pop = some (s', evs)) :
    evs = [.popInv] ∧ (∀ p, s'.prods p = s.prods p) ∧ s'.cons = .load := by
  simp only [step] at h
  split at h
  · cases h; exact ⟨rfl, fun _ => rfl, rfl⟩
  · cases h; exact ⟨rfl, fun _ => rfl, rfl⟩
  · cases h

theorem step_recv {s s' : St V} {evs : List (Ev V)} (h : step s .recv = some (s', evs)) :
    evs = [] ∧ (∀ p, s'.prods p = s.prods p) ∧ s.cons = .idle ∧ s'.cons = .ready := by
  simp only [step] at h
  split at h
  · rename_i hc _; cases h; exact ⟨rfl, fun _ => rfl, hc, rfl⟩
  · cases h

theorem step_cons {s s' : St V} {evs : List (Ev V)} (h : step s .cons = some (s', evs)) :
    (∀ p, s'.prods p = s.prods p) ∧ ((evs = [] ∧ s'.cons.busy) ∨ (∃ r, evs = [.popRet r] ∧ s'.cons = .idle)) := by
  simp only [step, stepCons] at h
  split at h
  · cases h
  · cases h
  · split at h <;> cases h
    · exact ⟨fun _ => rfl, .inl ⟨rfl, trivial⟩⟩
    · exact ⟨fun _ => rfl, .inr ⟨_, rfl, rfl⟩⟩
  · cases h; exact ⟨fun _ => rfl, .inl ⟨rfl, trivial⟩⟩
  · cases h; exact ⟨fun _ => rfl, .inl ⟨rfl, trivial⟩⟩
  · cases h; exact ⟨fun _ => rfl, .inr ⟨_, rfl, rfl⟩⟩

/-- When `Empty` says true, every `Push` that has returned has been popped, or is being popped, or is
queued behind a `Push` that is still in progress. -/
theorem empty_drained {h : List (Ev V)} {s : St V} (hr : (sys V).Run h s) (he : empty s = true) :
    ∃ order, Explains order h ∧ ∀ id, Ev.pushRet id ∈ h →
      (∃ x, (id, x) ∈ popped h ++ s.cons.inflight) ∨
      (∃ q b y x, Ev.pushInv q b y ∈ h ∧ Ev.pushRet b ∉ h ∧ Before order (b, y) (id, x)) := by
  obtain ⟨order, k, pend, A, B, C⟩ := run_inv hr
  have hn : (s.heap s.tail).next = none := by simpa [empty] using he
  have hpops := B.pops
  refine ⟨order, ⟨?_, B.called, B.complete, B.realTime, B.program, ?_⟩, ?_⟩
  · have := A.nodup; rw [chain, List.nodup_cons] at this; exact this.2
  · exact (List.prefix_append _ _).trans (hpops ▸ List.take_prefix _ _)
  · intro id hid
    obtain ⟨x, hx⟩ := B.complete id hid
    rw [← List.take_append_drop k order] at hx
    rcases List.mem_append.1 hx with h1 | h1
    · left; exact ⟨x, by rw [hpops]; exact h1⟩
    · right
      cases hd : order.drop k with
      | nil => rw [hd] at h1; cases h1
      | cons e r =>
        have he : order[k]? = some e := by
          have : (order.drop k)[0]? = some e := by rw [hd]; rfl
          simpa using this
        have h2 : (chain order)[k+1]? = some e.1 := by rw [chain_get_succ, he]; rfl
        obtain ⟨q, hq⟩ := A.missing k _ _ A.tailk h2 hn
        have hqid : (s.prods q).id? = some e.1 := by rw [hq]; rfl
        have hnr := B.retd q _ hqid
        obtain ⟨y, hy⟩ := B.allocInv q _ hqid
        obtain ⟨q', hq'⟩ := B.called e.1 e.2 (List.mem_of_getElem? he)
        obtain ⟨rfl, rfl⟩ := B.uniq q q' e.1 y e.2 hy hq'
        refine ⟨q, e.1, e.2, x, hq', hnr, ?_⟩
        rw [hd] at h1
        rcases List.mem_cons.1 h1 with h3 | h3
        · subst h3; exact absurd hid hnr
        · have h4 : List.Sublist [(e.1, e.2), (id, x)] (order.drop k) := by
            rw [hd]
            exact List.Sublist.cons_cons _ (List.singleton_sublist.2 h3)
          exact h4.trans (List.drop_sublist _ _)

/-- Push numbers identify the calls. -/
theorem push_uniq {h : List (Ev V)} {s : St V} (hr : (sys V).Run h s) {p q id : Nat} {x y : V}
    (h1 : Ev.pushInv p id x ∈ h) (h2 : Ev.pushInv q id y ∈ h) : p = q ∧ x = y := by
  obtain ⟨order, k, pend, A, B, C⟩ := run_inv hr
  exact B.uniq p q id x y h1 h2

/-- What is being popped stays so until it is returned. -/
theorem inflight_step {s s' : St V} {a : Act V} {evs : List (Ev V)} {e : Nat × V}
    (hs : step s a = some (s', evs)) (he : e ∈ s.cons.inflight) :
    e ∈ s'.cons.inflight ∨ Ev.popRet (some e) ∈ evs := by
  cases a with
  | push p x => rw [← (step_push hs).2.2.2.2.1] at he; exact .inl he
  | prod p => rw [← (step_prod hs).2.1] at he; exact .inl he
  | recv => rw [(step_recv hs).2.2.1] at he; simp [CPc.inflight] at he
  | pop =>
    simp only [step] at hs
    split at hs
    · rename_i hc; rw [hc] at he; simp [CPc.inflight] at he
    · rename_i hc; rw [hc] at he; simp [CPc.inflight] at he
    · cases hs
  | cons =>
    simp only [step, stepCons] at hs
    split at hs
    · cases hs
    · cases hs
    · rename_i hc; rw [hc] at he; simp [CPc.inflight] at he
    · rename_i hc; rw [hc] at he; simp [CPc.inflight] at he
    · rename_i hc; rw [hc] at he; cases hs; exact .inl he
    · rename_i hc; rw [hc] at he; cases hs
      refine .inr ?_
      rename_i n v c
      cases v with
      | none => simp [CPc.inflight] at he
      | some v => simp [CPc.inflight] at he ⊢; exact he

theorem before_irrefl {order : List (Nat × V)} (hn : (order.map Prod.fst).Nodup) {a b : Nat × V} {a' : V}
    (h1 : Before order a b) (h2 : Before order b (a.1, a')) : False := by
  obtain ⟨a1, a2⟩ := a
  obtain ⟨b1, b2⟩ := b
  have n1 : List.Sublist [a1, b1] (order.map Prod.fst) := by
    have := List.Sublist.map Prod.fst h1; simpa using this
  have n2 : List.Sublist [b1, a1] (order.map Prod.fst) := by
    have := List.Sublist.map Prod.fst h2; simpa using this
  have nd := n1.nodup hn
  generalize order.map Prod.fst = l at *
  induction l with
  | nil => cases n1
  | cons c l ih =>
    have hc := List.nodup_cons.1 hn
    cases n1 with
    | cons _ n1 =>
      cases n2 with
      | cons _ n2 => exact ih hc.2 n1 n2
      | cons_cons _ n2 => exact hc.1 (n1.subset (by simp))
    | cons_cons _ n1 =>
      cases n2 with
      | cons _ n2 => exact hc.1 (n2.subset (by simp))
      | cons_cons _ n2 => simp at nd

end Braid.Mpsc

namespace Braid

theorem before_filterMap {α β : Type} {f : α → Option β} {l : List α} {x y : α} {x' y' : β}
    (h : Before l x y) (hx : f x = some x') (hy : f y = some y') : Before (l.filterMap f) x' y' := by
  have := List.Sublist.filterMap f h
  simpa [Before, hx, hy] using this

end Braid
