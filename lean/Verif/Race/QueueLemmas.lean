import Verif.Race.Queue
import Verif.Actor.Inv3

/-
Helper lemmas for C112.
-/
namespace Braid.Race
open Braid

theorem take_lt {V : Type} {h : List (Mpsc.Ev V)} {s : Mpsc.St V} (hr : (Mpsc.sys V).Run h s) {n : Nat}
    (hc : s.cons = .take n) : n < s.fresh := by
  obtain ⟨order, k, pend, hA, _, _⟩ := Mpsc.run_inv hr
  exact hA.lt n (List.mem_of_getElem? (hA.take n hc))

theorem mpsc_push_fresh {V : Type} {s q : Mpsc.St V} {p : Nat} {x : V} {evs : List (Mpsc.Ev V)}
    (h : Mpsc.step s (.push p x) = some (q, evs)) : q.fresh = s.fresh + 1 ∧ q.cons = s.cons := by
  simp only [Mpsc.step] at h
  split at h <;> cases h
  exact ⟨rfl, rfl⟩

theorem mpsc_cons_fresh {V : Type} {s q : Mpsc.St V} {evs : List (Mpsc.Ev V)}
    (h : Mpsc.step s .cons = some (q, evs)) : q.fresh = s.fresh := by
  simp only [Mpsc.step, Mpsc.stepCons] at h
  repeat' split at h
  all_goals (cases h <;> rfl)

/-- What an access of the consumer is. -/
theorem cons_acc {V : Type} {h : List (Mpsc.Ev V)} {s : Mpsc.St V} (hr : (Mpsc.sys V).Run h s) {x : Acc QVar}
    (hx : x ∈ qacc s .cons) : x.var = .tail ∨ ∃ n, x.var = .val n ∧ n < s.fresh := by
  simp only [qacc] at hx
  split at hx
  · simp at hx; subst hx; exact .inl rfl
  · rename_i n hn
    have := take_lt hr hn
    simp at hx
    rcases hx with rfl | rfl
    · exact .inl rfl
    · exact .inr ⟨n, rfl, this⟩
  · simp at hx

/-- The steps of an actor that use plain variables of its queues. -/
inductive Uses (s s1 : Actor.State) (x : Acc AVar) : Actor.Act → Prop
  | push (p : Nat) (h1 : x.var = .mail (.val s.mb.fresh)) (h2 : s1.mb.fresh = s.mb.fresh + 1) (h3 : s1.rq = s.rq)
      (h4 : s1.mb.cons = s.mb.cons) (h5 : s1.loop = s.loop) : Uses s s1 x (.send p)
  | rpush (p r : Nat) (h1 : x.var = .reentry (.val s.rq.fresh)) (h2 : s1.rq.fresh = s.rq.fresh + 1) (h3 : s1.mb = s.mb)
      (h4 : s1.rq.cons = s.rq.cons) (h5 : s1.loop = s.loop) : Uses s s1 x (.rpush p r)
  | pop (h1 : x.var = .mail .tail ∨ ∃ n, x.var = .mail (.val n) ∧ n < s.mb.fresh)
      (h2 : s1.mb.fresh = s.mb.fresh) (h3 : s1.rq = s.rq) (h4 : s1.chk = s.chk) : Uses s s1 x .loop
  | rpop (h1 : x.var = .reentry .tail ∨ ∃ n, x.var = .reentry (.val n) ∧ n < s.rq.fresh)
      (h2 : s1.rq.fresh = s.rq.fresh) (h3 : s1.mb = s.mb) (h4 : s1.chk = s.chk) : Uses s s1 x .loop
  | check (t : Bool) (h1 : x.var = .mail .tail ∨ x.var = .reentry .tail) (h2 : s.chk ≠ .off) : Uses s s1 x (.check t)

theorem uses {self : String} {h : List Actor.Ev} {s s1 : Actor.State} (hr : (Actor.sys self).Run h s) {a : Actor.Act}
    {evs : List Actor.Ev} (hs : (Actor.sys self).step s a = some (s1, evs)) {x : Acc AVar} (hx : x ∈ aacc s a) :
    Uses s s1 x a := by
  have hq := Actor.invQ_run hr
  simp only [Actor.sys, Actor.step] at hs
  split at hs
  · cases hs
  cases a with
  | send p =>
    simp only [aacc] at hx
    split at hx
    · rename_i m hm
      simp only [Actor.stepSend, hm] at hs
      split at hs
      · rename_i q _ id _ hp
        cases hs
        obtain ⟨h1, h2⟩ := mpsc_push_fresh hp
        simp [qacc, Acc.map] at hx
        subst hx
        exact .push p rfl h1 rfl h2 rfl
      · cases hs
    · simp at hx
  | rpush p r =>
    simp only at hs
    split at hs
    · rename_i q _ id _ hp
      cases hs
      obtain ⟨h1, h2⟩ := mpsc_push_fresh hp
      simp [aacc, qacc, Acc.map] at hx
      subst hx
      exact .rpush p r rfl h1 rfl h2 rfl
    · cases hs
  | loop =>
    simp only [aacc] at hx
    split at hx
    · rename_i hl
      simp only [List.mem_map] at hx
      obtain ⟨x', hx', rfl⟩ := hx
      have h1 : (x'.map AVar.mail).var = .mail .tail ∨ ∃ n, (x'.map AVar.mail).var = .mail (.val n) ∧ n < s.mb.fresh := by
        rcases cons_acc hq.runQ hx' with h | ⟨n, h, hn⟩
        · exact .inl (by simp [Acc.map, h])
        · exact .inr ⟨n, by simp [Acc.map, h], hn⟩
      simp only [Actor.stepLoop, hl] at hs
      split at hs <;> first | (cases hs; done) | skip
      all_goals
        rename_i hp
        cases hs
        exact .pop h1 (mpsc_cons_fresh hp) rfl rfl
    · rename_i hl
      simp only [List.mem_map] at hx
      obtain ⟨x', hx', rfl⟩ := hx
      have h1 : (x'.map AVar.reentry).var = .reentry .tail ∨
          ∃ n, (x'.map AVar.reentry).var = .reentry (.val n) ∧ n < s.rq.fresh := by
        rcases cons_acc hq.runR hx' with h | ⟨n, h, hn⟩
        · exact .inl (by simp [Acc.map, h])
        · exact .inr ⟨n, by simp [Acc.map, h], hn⟩
      simp only [Actor.stepLoop, hl] at hs
      split at hs <;> first | (cases hs; done) | skip
      all_goals
        rename_i hp
        cases hs
        exact .rpop h1 (mpsc_cons_fresh hp) rfl rfl
    · simp at hx
  | check t =>
    simp only [aacc] at hx
    split at hx
    · rename_i hk; simp at hx; subst hx; exact .check t (.inl rfl) (by simp [hk])
    · rename_i hk; simp at hx; subst hx; exact .check t (.inr rfl) (by simp [hk])
    · simp at hx
  | _ => simp [aacc] at hx

theorem loop_acc {self : String} {h : List Actor.Ev} {s : Actor.State} (hr : (Actor.sys self).Run h s)
    {x : Acc AVar} (hx : x ∈ aacc s .loop) :
    x.var = .mail .tail ∨ x.var = .reentry .tail ∨ (∃ n, x.var = .mail (.val n) ∧ n < s.mb.fresh) ∨
      ∃ n, x.var = .reentry (.val n) ∧ n < s.rq.fresh := by
  have hq := Actor.invQ_run hr
  simp only [aacc] at hx
  split at hx
  · simp only [List.mem_map] at hx
    obtain ⟨x', hx', rfl⟩ := hx
    rcases cons_acc hq.runQ hx' with h | ⟨n, h, hn⟩
    · exact .inl (by simp [Acc.map, h])
    · exact .inr (.inr (.inl ⟨n, by simp [Acc.map, h], hn⟩))
  · simp only [List.mem_map] at hx
    obtain ⟨x', hx', rfl⟩ := hx
    rcases cons_acc hq.runR hx' with h | ⟨n, h, hn⟩
    · exact .inr (.inl (by simp [Acc.map, h]))
    · exact .inr (.inr (.inr ⟨n, by simp [Acc.map, h], hn⟩))
  · simp at hx

end Braid.Race
