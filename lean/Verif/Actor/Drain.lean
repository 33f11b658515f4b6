import Verif.Actor.Inv3

/-
Executions of the actor loop alone.
-/
namespace Braid.Actor
open Spec

/-- The actions of the loop (and of the handlers it runs). -/
def IsLoop : Act → Prop
  | .select .mail => True
  | .loop => True
  | .ended _ => True
  | _ => False

theorem round {self : String} {h : List Ev} {s : State} {order : List (Nat × Msg)} {k : Nat}
    {pend : List Nat} {e : Nat × Msg} (hg : Mpsc.G (h.filterMap projQ) s.mb order k pend)
    (hq : ∀ p, s.mb.prods p = .idle) (hc : s.mb.cons = .idle) (hl : s.loop = .sel)
    (hcr : s.crashed = false) (he : order[k]? = some e) :
    ∃ as s' o, (sys self).exec s as = some (s', [.poll, .start e.1 e.2, .finish e.1 e.2 o, .released e.1 e.2]) ∧
      (∀ a ∈ as, IsLoop a) ∧
      Mpsc.G ((h ++ [Ev.poll, .start e.1 e.2, .finish e.1 e.2 o, .released e.1 e.2]).filterMap projQ)
        s'.mb order (k+1) pend ∧
      (∀ p, s'.mb.prods p = .idle) ∧ s'.mb.cons = .idle ∧ s'.loop = .sel ∧ s'.crashed = false ∧
      s'.snd = s.snd := by
  have hklt := (List.getElem?_eq_some_iff.1 he).1
  obtain ⟨t, ht⟩ := Mpsc.tok_ready hg hq hc hklt
  have g0 := Mpsc.g_recv hg hc
  obtain ⟨s1, e1, g1, c1, q1⟩ := Mpsc.st_pop g0 (Or.inr rfl)
  have hn := Mpsc.tail_next g1.1 (by rw [q1]; exact hq) he
  obtain ⟨s2, e2, g2, c2, q2⟩ := Mpsc.st_load g1 c1 hn
  obtain ⟨s3, e3, g3, c3, q3⟩ := Mpsc.st_take g2 c2 he
  obtain ⟨s4, c, e4, g4, c4, q4⟩ := Mpsc.st_dec g3 c3
  obtain ⟨s5, e5, g5, c5, q5⟩ := Mpsc.st_send g4 c4
  have hrecv : Mpsc.step s.mb .recv = some ({ s.mb with tok := none, cons := .ready }, []) := by
    simp [Mpsc.step, hc, ht]
  simp only [Mpsc.sys] at e1 e2 e3 e4 e5
  have hout : ∃ o : Out, (o = .unknown ↔ e.2.ev ∉ s.chains) := by
    by_cases hm : e.2.ev ∈ s.chains
    · exact ⟨.ok, by simp [hm]⟩
    · exact ⟨.unknown, by simp [hm]⟩
  obtain ⟨o, ho⟩ := hout
  refine ⟨[.select .mail, .loop, .loop, .loop, .loop, .loop, .ended o, .loop],
    { s with mb := s5, wg := upd s.wg e.2.wg (s.wg e.2.wg - 1) }, o, ?_, ?_, ?_, ?_, c5, hl, hcr, rfl⟩
  · simp [Lts.exec, sys, step, stepSelect, stepLoop, stepEnded, hcr, hl, hrecv, e1, e2, e3, e4, e5, ho]
  · simp [IsLoop]
  · simpa [List.filterMap_append, List.filterMap_cons, projQ] using g5
  · rw [q5, q4, q3, q2, q1]; exact hq

theorem drain {self : String} {h : List Ev} {s : State} {order : List (Nat × Msg)} {k : Nat}
    {pend : List Nat} (hg : Mpsc.G (h.filterMap projQ) s.mb order k pend)
    (hq : ∀ p, s.mb.prods p = .idle) (hc : s.mb.cons = .idle) (hl : s.loop = .sel)
    (hcr : s.crashed = false) :
    ∃ as s' evs, (sys self).exec s as = some (s', evs) ∧ (∀ a ∈ as, IsLoop a) ∧
      started evs = order.drop k ∧ (∀ id m, (id, m) ∈ order.drop k → ∃ o, .finish id m o ∈ evs) := by
  generalize hr : order.drop k = r
  induction r generalizing h s k with
  | nil => exact ⟨[], s, [], rfl, by simp, rfl, by simp⟩
  | cons e r ih =>
    have he : order[k]? = some e := by
      have : (order.drop k)[0]? = some e := by rw [hr]; rfl
      simpa using this
    obtain ⟨as, s1, o, h1, h2, g1, q1, c1, l1, cr1, -⟩ := round (self := self) hg hq hc hl hcr he
    have hr' : order.drop (k+1) = r := by rw [← List.drop_drop, hr]; rfl
    obtain ⟨as', s2, evs, h3, h4, h5, h6⟩ := ih g1 q1 c1 l1 cr1 hr'
    refine ⟨as ++ as', s2, _, Lts.exec_append h1 h3, ?_, ?_, ?_⟩
    · intro a ha
      rcases List.mem_append.1 ha with ha | ha
      · exact h2 a ha
      · exact h4 a ha
    · rw [← h5]; simp [started]
    · intro id m hm
      rcases List.mem_cons.1 hm with hm | hm
      · subst hm; exact ⟨o, by simp⟩
      · obtain ⟨o, ho⟩ := h6 id m hm; exact ⟨o, List.mem_append_right _ ho⟩

end Braid.Actor
