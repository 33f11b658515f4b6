import Verif.PubSub.Spec

/-
Invariants of publish and subscribe.
-/
namespace Braid.PubSub
open Spec

/-! ### Lists -/

theorem pubs_append (h k : List Ev) : pubs (h ++ k) = pubs h ++ pubs k := List.filterMap_append
theorem deliveredTo_append (c : Nat) (h k : List Ev) : deliveredTo c (h ++ k) = deliveredTo c h ++ deliveredTo c k :=
  List.filterMap_append

/-- A list sorted by tags whose members are in a list sorted by tags is a sublist of it. -/
theorem sublist_of_sorted : ∀ (l m : List Msg), l.Pairwise (fun a b => a.tag < b.tag) →
    m.Pairwise (fun a b => a.tag < b.tag) → (∀ x ∈ l, x ∈ m) → l.Sublist m
  | [], _, _, _, _ => List.nil_sublist _
  | a :: l, [], _, _, h => by cases h a (by simp)
  | a :: l, b :: m, hl, hm, h => by
    rw [List.pairwise_cons] at hl hm
    by_cases hab : a = b
    · subst hab
      refine (sublist_of_sorted l m hl.2 hm.2 fun x hx => ?_).cons_cons a
      rcases List.mem_cons.1 (h x (List.mem_cons_of_mem _ hx)) with rfl | hx'
      · have := hl.1 _ hx; omega
      · exact hx'
    · have ha : a ∈ m := by
        rcases List.mem_cons.1 (h a (by simp)) with h' | h'
        · exact absurd h' hab
        · exact h'
      have hlt := hm.1 a ha
      refine (sublist_of_sorted (a :: l) m (List.pairwise_cons.2 hl) hm.2 fun x hx => ?_).cons b
      rcases List.mem_cons.1 hx with rfl | hx
      · exact ha
      · rcases List.mem_cons.1 (h x (List.mem_cons_of_mem _ hx)) with rfl | h'
        · have := hl.1 _ hx; omega
        · exact h'

/-! ### The stream -/

/-- Entries are in the order of their ids and of publication. -/
structure InvE (h : List Ev) (s : State) : Prop where
  sorted : s.entries.Pairwise (fun a b => a.id < b.id ∧ a.msg.tag < b.msg.tag)
  last : ∀ e ∈ s.entries, e.id ≤ s.last
  tags : ∀ m ∈ pubs h, m.tag < s.tags
  order : (pubs h).Pairwise (fun a b => a.tag < b.tag)
  mem : ∀ e ∈ s.entries, e.msg ∈ pubs h

theorem InvE.congr {h h' : List Ev} {s s' : State} (hi : InvE h s) (he : s'.entries = s.entries)
    (hl : s'.last = s.last) (ht : s'.tags = s.tags) (hp : pubs h' = pubs h) : InvE h' s' :=
  ⟨he ▸ hi.sorted, by rw [he, hl]; exact hi.last, by rw [hp, ht]; exact hi.tags, hp ▸ hi.order,
    by rw [he, hp]; exact hi.mem⟩

/-- Case distinction on a step. -/
macro "ps_cases" h:ident : tactic => `(tactic| (
  simp only [step] at $h:ident
  repeat' (split at $h:ident)
  all_goals (try (cases $h:ident))))

theorem pubs_single (e : Ev) : pubs [e] = match e with | .pub m => [m] | _ => [] := by
  cases e <;> rfl

theorem invE_run {h : List Ev} {s : State} (hr : sys.Run h s) : InvE h s := by
  refine hr.invariant (P := InvE) ⟨by simp [sys, init], by simp [sys, init], by simp [pubs], by simp [pubs],
    by simp [sys, init]⟩ ?_
  intro h s a s' evs _ hi hs
  replace hs : step s a = some (s', evs) := hs
  have ⟨h1, h2, h3, h4, h5⟩ := hi
  cases a with
  | pub event body k =>
    simp only [step] at hs
    split at hs
    · cases hs
      exact hi.congr rfl rfl rfl (by simp [pubs])
    · cases hs
      have hp : pubs (h ++ [Ev.pub ⟨s.tags, event, body⟩]) = pubs h ++ [⟨s.tags, event, body⟩] := by simp [pubs]
      refine ⟨?_, ?_, ?_, ?_, ?_⟩
      · rw [List.pairwise_append]
        refine ⟨h1, by simp, ?_⟩
        intro a ha b hb
        rw [List.mem_singleton.1 hb]
        exact ⟨by have := h2 a ha; simp only; omega, h3 _ (h5 a ha)⟩
      · intro e he
        rcases List.mem_append.1 he with he | he
        · have := h2 e he; simp only; omega
        · rw [List.mem_singleton.1 he]; exact Nat.le_refl _
      · rw [hp]; intro m hm
        rcases List.mem_append.1 hm with hm | hm
        · have := h3 m hm; simp only; omega
        · rw [List.mem_singleton.1 hm]; simp
      · rw [hp, List.pairwise_append]
        exact ⟨h4, by simp, fun a ha b hb => by rw [List.mem_singleton.1 hb]; exact h3 a ha⟩
      · rw [hp]; intro e he
        rcases List.mem_append.1 he with he | he
        · exact List.mem_append_left _ (h5 e he)
        · rw [List.mem_singleton.1 he]; simp
  | sub c g b =>
    simp only [step] at hs
    split at hs
    · cases hs
    · split at hs <;> cases hs <;> exact hi.congr rfl rfl rfl (by simp [pubs])
  | del c ok =>
    simp only [step] at hs
    split at hs
    · cases hs
      simp only [List.append_nil]
      refine ⟨?_, ?_, h3, h4, ?_⟩
      · split
        · exact h1.sublist List.filter_sublist
        · exact h1
      · intro e he; split at he
        · exact h2 e (List.mem_filter.1 he).1
        · exact h2 e he
      · intro e he; split at he
        · exact h5 e (List.mem_filter.1 he).1
        · exact h5 e he
    · cases hs
  | drop =>
    cases hs
    have hp : pubs (h ++ [Ev.dropped]) = pubs h := by simp [pubs]
    exact ⟨by simp, by simp, by rw [hp]; exact h3, by rw [hp]; exact h4, by simp⟩
  | read c =>
    ps_cases hs
    all_goals exact hi.congr rfl rfl rfl (by simp [pubs])
  | put c =>
    ps_cases hs
    all_goals exact hi.congr rfl rfl rfl (by simp [pubs])
  | handle c =>
    ps_cases hs
    all_goals exact hi.congr rfl rfl rfl (by simp [pubs])
  | close c =>
    ps_cases hs
    all_goals exact hi.congr rfl rfl rfl (by simp [pubs])
  | crash c =>
    ps_cases hs
    all_goals exact hi.congr rfl rfl rfl (by simp [pubs])

end Braid.PubSub
