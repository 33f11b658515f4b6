import Verif.PubSub.Flow
import Verif.Reenter.Measure

/-
One channel: nothing is lost, and the subscribers come to rest.
-/
namespace Braid.PubSub
open Spec
open Reenter (sumTo sumTo_congr sumTo_upd)

/-! ### Coming to rest -/

theorem sumTo_lt {f g : Nat → Nat} {a : Nat} : ∀ {n : Nat}, (∀ c, f c ≤ g c) → a < n → f a < g a →
    sumTo f n < sumTo g n
  | 0, _, h, _ => absurd h (by omega)
  | n + 1, hle, h, hlt => by
    have hle' : ∀ m, sumTo f m ≤ sumTo g m := by
      intro m
      induction m with
      | zero => simp [sumTo]
      | succ m ih => have := hle m; simp only [sumTo]; omega
    by_cases hn : a = n
    · subst hn; have := hle' a; simp only [sumTo]; omega
    · have := sumTo_lt (a := a) (n := n) hle (by omega) hlt
      have := hle n
      simp only [sumTo]; omega

/-- The entries the group has not been given. -/
def left (es : List Entry) : Option Nat → Nat
  | none => 0
  | some l => (es.filter (l < ·.id)).length

def ackW : Option Entry → Nat
  | none => 0
  | some _ => 1

def weight (s : State) (c : Nat) : Nat :=
  4 * left s.entries (s.groups (s.subs c).group) + 3 * (s.subs c).batch.length + 2 * (s.subs c).buf.length +
    ackW (s.subs c).ack

theorem left_mono {es es' : List Entry} (h : es'.Sublist es) (o : Option Nat) : left es' o ≤ left es o := by
  cases o with
  | none => simp [left]
  | some l => exact (h.filter _).length_le

theorem left_read {es : List Entry} {l : Nat} (hs : es.Pairwise (fun a b => a.id < b.id)) :
    left es (some (advance l (unread es l))) + (unread es l).length ≤ left es (some l) := by
  have hl : l ≤ advance l (unread es l) := le_advance fun e he => (mem_unread he).2
  have hF : es.filter (l < ·.id) = unread es l ++ (es.filter (l < ·.id)).drop 10 := by
    unfold unread; exact (List.take_append_drop _ _).symm
  have h1 : es.filter (advance l (unread es l) < ·.id)
      = (es.filter (l < ·.id)).filter (advance l (unread es l) < ·.id) := by
    rw [List.filter_filter]
    apply List.filter_congr
    intro e _
    by_cases hh : advance l (unread es l) < e.id
    · have : l < e.id := by omega
      simp [hh, this]
    · simp [hh]
  have hn : (unread es l).filter (advance l (unread es l) < ·.id) = [] := by
    rw [List.filter_eq_nil_iff]
    intro e he
    have := le_advance_mem (l := l) (hs.sublist (unread_sublist es l)) he
    simp; omega
  simp only [left]
  rw [h1]
  generalize hadv : advance l (unread es l) = a at *
  rw [hF, List.filter_append, hn, List.nil_append, List.length_append]
  have := (List.filter_sublist (p := (a < ·.id)) (l := (es.filter (l < ·.id)).drop 10)).length_le
  omega

theorem moves_run {h : List Ev} {s s' : State} {n : Nat} {k : List Ev} (hr : sys.Run h s) (hm : Moves s n s' k) :
    sys.Run (h ++ k) s' := by
  induction hm generalizing h with
  | nil => simpa using hr
  | cons _ hs _ ih => rw [← List.append_assoc]; exact ih (hr.step hs)

theorem moves_events {s s' : State} {n : Nat} {k : List Ev} (hm : Moves s n s' k) :
    ∀ e ∈ k, ∃ c m, e = Ev.deliver c m := by
  induction hm with
  | nil => simp
  | @cons s s1 s2 a e1 e2 n ha hs _ ih =>
    intro e he
    rcases List.mem_append.1 he with he | he
    · cases a <;> (try cases ha) <;> ps_cases hs <;> (try cases he)
      · exact ⟨_, _, rfl⟩
      · rename_i h; cases h
    · exact ih e he

theorem internal_on {s s1 : State} {a : Act} {e1 : List Ev} (ha : Internal s a) (hs : step s a = some (s1, e1)) :
    ∀ c, (s1.subs c).on = (s.subs c).on := by
  intro c
  cases a <;> (try cases ha) <;> ps_cases hs <;> (try simp only [upd_apply]) <;> grind

theorem internal_lt {h : List Ev} {s s1 : State} {a : Act} {e1 : List Ev} (hr : sys.Run h s) (ha : Internal s a)
    (hs : step s a = some (s1, e1)) :
    (∀ c, weight s1 c ≤ weight s c) ∧ ∃ c, (s.subs c).on = true ∧ weight s1 c < weight s c := by
  have hE := invE_run hr
  have hsort := hE.sorted.imp (S := fun a b : Entry => a.id < b.id) fun h => h.1
  cases a with
  | read c =>
    obtain ⟨l, hl, e, he, hle⟩ := ha
    simp only [step] at hs
    split at hs
    · rename_i hon
      rw [hl] at hs
      cases hs
      have h1 := left_read (l := l) hsort
      have hne : 0 < (unread s.entries l).length := by
        unfold unread
        rw [List.length_take]
        have : e ∈ s.entries.filter (l < ·.id) := List.mem_filter.2 ⟨he, by simpa using hle⟩
        have := List.length_pos_of_mem this
        omega
      generalize unread s.entries l = es at *
      have hc : weight { s with
          groups := upd s.groups (s.subs c).group (some (advance l es))
          consumers := if c ∈ s.consumers (s.subs c).group then s.consumers
            else upd s.consumers (s.subs c).group (c :: s.consumers (s.subs c).group)
          subs := upd s.subs c { s.subs c with batch := es } } c < weight s c := by
        simp only [weight, upd_same, hon.2, hl, List.length_nil]; omega
      refine ⟨fun c' => ?_, c, hon.1, hc⟩
      by_cases hcc : c' = c
      · subst hcc; exact Nat.le_of_lt hc
      · simp only [weight, upd_of_ne _ _ hcc]
        by_cases hg : (s.subs c').group = (s.subs c).group
        · rw [hg, upd_same, hl]; omega
        · rw [upd_of_ne _ _ hg]; omega
    · cases hs
  | put c =>
    ps_cases hs
    rename_i e r hon hb
    have hc : weight { s with subs := upd s.subs c { s.subs c with batch := r, buf := (s.subs c).buf ++ [e] } } c
        < weight s c := by
      simp only [weight, upd_same, hb, List.length_cons, List.length_append, List.length_nil]; omega
    refine ⟨fun c' => ?_, c, hon, hc⟩
    by_cases hcc : c' = c
    · subst hcc; exact Nat.le_of_lt hc
    · simp only [weight, upd_of_ne _ _ hcc]; omega
  | handle c =>
    ps_cases hs
    rename_i e r hon ha' hb
    have hc : weight { s with subs := upd s.subs c { s.subs c with buf := r, ack := some e } } c < weight s c := by
      simp only [weight, upd_same, ha', hb, List.length_cons, ackW]; omega
    refine ⟨fun c' => ?_, c, hon, hc⟩
    by_cases hcc : c' = c
    · subst hcc; exact Nat.le_of_lt hc
    · simp only [weight, upd_of_ne _ _ hcc]; omega
  | del c ok =>
    simp only [step] at hs
    split at hs
    · rename_i e hon hack
      cases hs
      have hsub : (if ok then s.entries.filter (·.id ≠ e.id) else s.entries).Sublist s.entries := by
        split
        · exact List.filter_sublist
        · exact List.Sublist.refl _
      generalize (if ok then s.entries.filter (·.id ≠ e.id) else s.entries) = es at *
      have hc : weight { s with entries := es, subs := upd s.subs c { s.subs c with ack := none } } c
          < weight s c := by
        have := left_mono hsub (s.groups (s.subs c).group)
        simp only [weight, upd_same, hack, ackW]; omega
      refine ⟨fun c' => ?_, c, hon, hc⟩
      by_cases hcc : c' = c
      · subst hcc; exact Nat.le_of_lt hc
      · have := left_mono hsub (s.groups (s.subs c').group)
        simp only [weight, upd_of_ne _ _ hcc]; omega
    · cases hs
  | _ => cases ha

theorem bounded_on {h : List Ev} {s : State} (hr : sys.Run h s) : ∃ n, ∀ c, (s.subs c).on = true → c < n := by
  refine hr.invariant (P := fun _ s => ∃ n, ∀ c, (s.subs c).on = true → c < n) ⟨0, by simp [sys, init, noSub]⟩ ?_
  intro h s a s' evs _ hi hs
  replace hs : step s a = some (s', evs) := hs
  obtain ⟨n, hn⟩ := hi
  cases a with
  | sub c g b =>
    refine ⟨max n (c + 1), ?_⟩
    ps_cases hs
    all_goals
      intro c' hc'
      by_cases hcc : c' = c
      · omega
      · simp only [upd_of_ne _ _ hcc] at hc'; have := hn c' hc'; omega
  | _ =>
    refine ⟨n, ?_⟩
    ps_cases hs
    all_goals (try simp only [upd_apply])
    all_goals grind

theorem moves_bound {n : Nat} {h : List Ev} {s s' : State} {m : Nat} {k : List Ev} (hr : sys.Run h s)
    (hn : ∀ c, (s.subs c).on = true → c < n) (hm : Moves s m s' k) : m ≤ sumTo (weight s) n := by
  induction hm generalizing h with
  | nil => omega
  | cons ha hs _ ih =>
    have h1 := ih (hr.step hs) (fun c hc => hn c (by rw [← internal_on ha hs]; exact hc))
    obtain ⟨hle, c, hc, hlt⟩ := internal_lt hr ha hs
    have := sumTo_lt hle (hn c hc) hlt
    omega

/-- A subscriber that cannot move anything is at rest. -/
theorem stuck_rest {s : State} (hs : Stuck s) {c : Nat} (hc : (s.subs c).on = true) : AtRest s c := by
  have hack : (s.subs c).ack = none := by
    have := hs (.del c true) trivial
    simp only [step] at this
    split at this
    · cases this
    · rename_i h; cases ha : (s.subs c).ack with
      | none => rfl
      | some e => exact absurd ha (h e hc)
  have hbuf : (s.subs c).buf = [] := by
    have := hs (.handle c) trivial
    simp only [step] at this
    split at this
    · cases this
    · rename_i h; cases hb : (s.subs c).buf with
      | nil => rfl
      | cons e r => exact absurd hb (h e r hc hack)
  have hbatch : (s.subs c).batch = [] := by
    have := hs (.put c) trivial
    simp only [step] at this
    split at this
    · cases this
    · rename_i h; cases hb : (s.subs c).batch with
      | nil => rfl
      | cons e r => exact absurd hb (h e r hc)
  refine ⟨hbatch, hbuf, fun l hl e he => ?_⟩
  by_cases hle : l < e.id
  · have := hs (.read c) ⟨l, hl, e, he, hle⟩
    simp [step, hc, hbatch, hl] at this
  · omega

/-! ### Nothing is lost -/

theorem advance_le {es : List Entry} {l k : Nat} (hl : l ≤ k) (h : ∀ e ∈ es, e.id ≤ k) : advance l es ≤ k := by
  unfold advance
  cases he : es.getLast? with
  | none => simpa using hl
  | some e => simpa using h e (List.mem_of_getLast? he)

/-- A group is never ahead of the stream. -/
theorem glast {h : List Ev} {s : State} (hr : sys.Run h s) : ∀ {g l}, s.groups g = some l → l ≤ s.last := by
  refine hr.invariant (P := fun _ s => ∀ {g l}, s.groups g = some l → l ≤ s.last) (by simp [sys, init]) ?_
  intro h s a s' evs hr' hi hs g l hl
  replace hs : step s a = some (s', evs) := hs
  have hE := invE_run hr'
  cases a with
  | pub event body k =>
    ps_cases hs
    · exact hi hl
    · have := hi hl; simp only; omega
  | sub c g' b =>
    ps_cases hs
    · exact hi hl
    · simp only [upd_apply] at hl
      split at hl
      · cases hl; simp
      · exact hi hl
    · simp only [upd_apply] at hl
      split at hl
      · cases hl; simp
      · exact hi hl
  | read c =>
    ps_cases hs
    · exact hi hl
    all_goals
      rename_i l' hl' _
      simp only [upd_apply] at hl
      split at hl
      · cases hl
        exact advance_le (hi hl') fun e he => hE.last e (mem_unread he).1
      · exact hi hl
  | close c =>
    ps_cases hs
    · exact hi hl
    · exact hi hl
    · exact hi hl
    · simp only [upd_apply] at hl
      split at hl
      · cases hl
      · exact hi hl
  | drop => cases hs; cases hl
  | _ => ps_cases hs <;> exact hi hl

/-- An unread entry that was not read is above what was read. -/
theorem lt_advance {es : List Entry} {l : Nat} (hs : es.Pairwise (fun a b => a.id < b.id)) {e : Entry} (he : e ∈ es)
    (hle : l < e.id) (hin : e ∉ unread es l) : advance l (unread es l) < e.id := by
  have hmem : e ∈ es.filter (l < ·.id) := List.mem_filter.2 ⟨he, by simpa using hle⟩
  have hF : es.filter (l < ·.id) = unread es l ++ (es.filter (l < ·.id)).drop 10 := by
    unfold unread; exact (List.take_append_drop _ _).symm
  have hsort := hs.sublist (List.filter_sublist (p := (l < ·.id)))
  rw [hF] at hmem hsort
  have hdrop := (List.mem_append.1 hmem).resolve_left hin
  rw [List.pairwise_append] at hsort
  unfold advance
  cases hx : (unread es l).getLast? with
  | none => simpa using hle
  | some x => simpa using hsort.2.2 x (List.mem_of_getLast? hx) e hdrop

structure InvR (g : String) (h : List Ev) (s : State) : Prop where
  grp : ∀ c, (s.subs c).group = "" ∨ (s.subs c).group = g
  alive : ∀ c, (s.subs c).group = g → (s.subs c).on = true ∧ Ev.sub c g ∈ h
  ids : ∀ e ∈ s.entries, 0 < e.id
  held : ∀ c e, (e ∈ (s.subs c).buf ∨ e ∈ (s.subs c).batch ∨ (s.subs c).ack = some e) →
    (s.subs c).group = g ∧ ∃ l, s.groups g = some l ∧ e.id ≤ l
  fresh : s.groups g = none → (∀ b, Ev.group g b ∉ h) ∧ ∀ m, Ev.pub m ∈ h → ∃ e ∈ s.entries, e.msg = m
  kept : ∀ m, Due g m h → DeliveredOn g m h ∨
    (∃ c e, (e ∈ (s.subs c).buf ∨ e ∈ (s.subs c).batch) ∧ e.msg = m) ∨
    ∃ e ∈ s.entries, e.msg = m ∧ ∀ l, s.groups g = some l → l < e.id

theorem due_cases {g : String} {m : Msg} {h k : List Ev} (hd : Due g m (h ++ k)) :
    Due g m h ∨ (Ev.pub m ∈ k ∧ ∃ b, Ev.group g b ∈ h ++ k) ∨ (Ev.pub m ∈ h ∧ Ev.group g true ∈ k) := by
  rcases hd with ⟨pre, post, b, he, hb⟩ | ⟨hp, hg⟩
  · rcases List.append_eq_append_iff.1 he with ⟨a, h1, h2⟩ | ⟨a, h1, h2⟩
    · refine .inr (.inl ⟨by rw [h2]; simp, b, ?_⟩)
      rw [he]; exact List.mem_append_left _ hb
    · cases a with
      | nil =>
        rw [List.nil_append] at h2
        refine .inr (.inl ⟨by rw [← h2]; simp, b, ?_⟩)
        rw [he]; exact List.mem_append_left _ hb
      | cons x a =>
        rw [List.cons_append, List.cons.injEq] at h2
        obtain ⟨rfl, -⟩ := h2
        exact .inl (.inl ⟨pre, a, b, h1, hb⟩)
  · rcases List.mem_append.1 hg with hg | hg
    · rcases List.mem_append.1 hp with hp | hp
      · exact .inl (.inr ⟨hp, hg⟩)
      · exact .inr (.inl ⟨hp, true, List.mem_append_left _ hg⟩)
    · rcases List.mem_append.1 hp with hp | hp
      · exact .inr (.inr ⟨hp, hg⟩)
      · exact .inr (.inl ⟨hp, true, List.mem_append_right _ hg⟩)

theorem deliveredOn_append {g : String} {m : Msg} {h : List Ev} (k : List Ev) (hd : DeliveredOn g m h) :
    DeliveredOn g m (h ++ k) := by
  obtain ⟨c, h1, h2⟩ := hd
  exact ⟨c, List.mem_append_left _ h1, List.mem_append_left _ h2⟩

theorem quiet_prefix {h k : List Ev} (hq : Quiet (h ++ k)) : Quiet h :=
  fun e he => hq e (List.mem_append_left _ he)

theorem one_prefix {g : String} {h k : List Ev} (hq : OneChannel g (h ++ k)) : OneChannel g h :=
  fun c g' he => hq c g' (List.mem_append_left _ he)

/-- A step without events of interest keeps the invariant if it only moves entries onwards. -/
theorem due_same {g : String} {m : Msg} {h k : List Ev} (hk : ∀ m, Ev.pub m ∉ k) (hk' : ∀ g b, Ev.group g b ∉ k)
    (hd : Due g m (h ++ k)) : Due g m h := by
  rcases due_cases hd with hd | ⟨hd, -⟩ | ⟨-, hd⟩
  · exact hd
  · exact absurd hd (hk m)
  · exact absurd hd (hk' _ _)

theorem invR_run {g : String} (hg0 : g ≠ "") {h : List Ev} {s : State} (hr : sys.Run h s) :
    OneChannel g h → Quiet h → InvR g h s := by
  refine hr.invariant (P := fun h s => OneChannel g h → Quiet h → InvR g h s) ?_ ?_
  · intro _ _
    refine ⟨by simp [sys, init, noSub], ?_, by simp [sys, init], by simp [sys, init, noSub], by simp, ?_⟩
    · intro c hc; exact absurd hc.symm (by simpa [sys, init, noSub] using hg0)
    · rintro m (⟨pre, post, b, he, -⟩ | ⟨he, -⟩)
      · simp at he
      · cases he
  intro h s a s' evs hr' hi0 hs ho hq
  replace hs : step s a = some (s', evs) := hs
  have hi := hi0 (one_prefix ho) (quiet_prefix hq)
  have hE := invE_run hr'
  obtain ⟨h1, h2, h3, h4, h5, h6⟩ := hi
  have gmade : ∀ b, Ev.group g b ∈ h → s.groups g ≠ none := fun b hb hn => (h5 hn).1 b hb
  cases a with
  | drop => cases hs; exact False.elim (hq .dropped (by simp))
  | crash c => ps_cases hs; exact False.elim (hq (.crash c) (List.mem_append_right _ (List.mem_singleton.2 rfl)))
  | pub event body k =>
    simp only [step] at hs
    split at hs
    · cases hs
      refine ⟨h1, fun c hc => ⟨(h2 c hc).1, List.mem_append_left _ (h2 c hc).2⟩, h3, h4, ?_, ?_⟩
      · intro hn; simpa using h5 hn
      · intro m hm
        rcases h6 m (due_same (by simp) (by simp) hm) with h | h
        · exact .inl (deliveredOn_append _ h)
        · exact .inr h
    · cases hs
      refine ⟨h1, fun c hc => ⟨(h2 c hc).1, List.mem_append_left _ (h2 c hc).2⟩, ?_, h4, ?_, ?_⟩
      · intro e he
        rcases List.mem_append.1 he with he | he
        · exact h3 e he
        · rw [List.mem_singleton.1 he]; simp; omega
      · intro hn
        refine ⟨fun b => by simpa using (h5 hn).1 b, fun m hm => ?_⟩
        rcases List.mem_append.1 hm with hm | hm
        · obtain ⟨e, he, rfl⟩ := (h5 hn).2 m hm; exact ⟨e, List.mem_append_left _ he, rfl⟩
        · cases (List.mem_singleton.1 hm); exact ⟨_, List.mem_append_right _ (List.mem_singleton.2 rfl), rfl⟩
      · intro m hm
        rcases due_cases hm with hm | ⟨hm, -⟩ | ⟨-, hm⟩
        · rcases h6 m hm with h | h | ⟨e, he, h⟩
          · exact .inl (deliveredOn_append _ h)
          · exact .inr (.inl h)
          · exact .inr (.inr ⟨e, List.mem_append_left _ he, h⟩)
        · cases (List.mem_singleton.1 hm)
          refine .inr (.inr ⟨_, List.mem_append_right _ (List.mem_singleton.2 rfl), rfl, fun l hl => ?_⟩)
          have := glast hr' hl
          simp only; omega
        · simp at hm
  | sub c g' fromStart =>
    have hgg : g' = g := by
      refine ho c g' (List.mem_append_right _ ?_)
      ps_cases hs
      all_goals simp
    subst hgg
    simp only [step] at hs
    split at hs
    · cases hs
    rename_i hc
    simp only [not_or, ne_eq, Decidable.not_not] at hc
    obtain ⟨-, hc0, -⟩ := hc
    have hempty : ∀ e, ¬ (e ∈ (s.subs c).buf ∨ e ∈ (s.subs c).batch ∨ (s.subs c).ack = some e) := by
      intro e he
      have := (h4 c e he).1
      exact hg0 (by rw [← this, hc0])
    have hkeep : ∀ c' e, (e ∈ (s.subs c').buf ∨ e ∈ (s.subs c').batch) →
        (e ∈ (upd s.subs c ⟨true, g', [], [], none, .no⟩ c').buf ∨
          e ∈ (upd s.subs c ⟨true, g', [], [], none, .no⟩ c').batch) := by
      intro c' e he
      by_cases hcc : c' = c
      · subst hcc; exact absurd (he.imp id .inl) (hempty e)
      · rw [upd_of_ne _ _ hcc]; exact he
    have hgrp : ∀ c', (upd s.subs c ⟨true, g', [], [], none, .no⟩ c').group = "" ∨
        (upd s.subs c ⟨true, g', [], [], none, .no⟩ c').group = g' := by
      intro c'; rw [upd_apply]; split
      · exact .inr rfl
      · exact h1 c'
    split at hs
    · rename_i l0 hl0
      cases hs
      refine ⟨hgrp, ?_, h3, ?_, ?_, ?_⟩
      · intro c' hc'
        by_cases hcc : c' = c
        · subst hcc; simp
        · simp only [upd_of_ne _ _ hcc] at hc' ⊢
          exact ⟨(h2 c' hc').1, List.mem_append_left _ (h2 c' hc').2⟩
      · intro c' e he
        by_cases hcc : c' = c
        · subst hcc; simp at he
        · simp only [upd_of_ne _ _ hcc] at he ⊢; exact h4 c' e he
      · intro hn; rw [hl0] at hn; cases hn
      · intro m hm
        rcases h6 m (due_same (by simp) (by simp) hm) with h | ⟨c', e, he, h⟩ | h
        · exact .inl (deliveredOn_append _ h)
        · exact .inr (.inl ⟨c', e, hkeep c' e he, h⟩)
        · exact .inr (.inr h)
    · rename_i hgn
      cases hs
      refine ⟨hgrp, ?_, h3, ?_, ?_, ?_⟩
      · intro c' hc'
        by_cases hcc : c' = c
        · subst hcc; simp
        · simp only [upd_of_ne _ _ hcc] at hc' ⊢
          exact ⟨(h2 c' hc').1, List.mem_append_left _ (h2 c' hc').2⟩
      · intro c' e he
        by_cases hcc : c' = c
        · subst hcc; simp at he
        · simp only [upd_of_ne _ _ hcc] at he ⊢
          obtain ⟨-, l, hl, -⟩ := h4 c' e he
          rw [hgn] at hl; cases hl
      · intro hn; simp at hn
      · intro m hm
        rcases due_cases hm with hm | ⟨hm, -⟩ | ⟨hm, hst⟩
        · exfalso
          rcases hm with ⟨pre, post, b, rfl, hb⟩ | ⟨-, hb⟩
          · exact (h5 hgn).1 b (List.mem_append_left _ hb)
          · exact (h5 hgn).1 true hb
        · simp at hm
        · obtain ⟨e, he, rfl⟩ := (h5 hgn).2 m hm
          refine .inr (.inr ⟨e, he, rfl, fun l hl => ?_⟩)
          have : fromStart = true := by simpa using hst
          subst this
          simp at hl
          have := h3 e he; omega
  | read c =>
    simp only [step] at hs
    split at hs
    · rename_i hon
      split at hs
      · cases hs
        simp only [List.append_nil]
        exact ⟨h1, h2, h3, h4, h5, h6⟩
      · rename_i l hl
        cases hs
        simp only [List.append_nil]
        generalize (if c ∈ s.consumers (s.subs c).group then s.consumers else _) = cons
        have hcg : (s.subs c).group = g := by
          rcases h1 c with h | h
          · exact absurd h (hnone hr' c hon.1)
          · exact h
        rw [hcg] at hl ⊢
        have hes := fun e (he : e ∈ unread s.entries l) => mem_unread he
        have hadv := fun e (he : e ∈ unread s.entries l) => le_advance_mem (l := l)
          ((hE.sorted.sublist (unread_sublist s.entries l)).imp fun h => h.1) he
        have hge : l ≤ advance l (unread s.entries l) := le_advance fun e he => (hes e he).2
        refine ⟨?_, ?_, h3, ?_, ?_, ?_⟩
        · intro c'; simp only [upd_apply]; split
          · exact .inr (by simp)
          · exact h1 c'
        · intro c' hc'
          simp only [upd_apply] at hc' ⊢; split
          · rename_i h; subst h; exact h2 c' hcg
          · rename_i h; rw [if_neg h] at hc'; exact h2 c' hc'
        · intro c' e he
          simp only [upd_same]
          by_cases hcc : c' = c
          · subst hcc
            simp only [upd_same] at he ⊢
            refine ⟨by simp, _, rfl, ?_⟩
            rcases he with he | he | he
            · obtain ⟨-, l', hl', hle⟩ := h4 c' e (.inl he)
              rw [hl] at hl'; cases hl'; omega
            · exact hadv e he
            · obtain ⟨-, l', hl', hle⟩ := h4 c' e (.inr (.inr he))
              rw [hl] at hl'; cases hl'; omega
          · simp only [upd_of_ne _ _ hcc] at he ⊢
            obtain ⟨hg, l', hl', hle⟩ := h4 c' e he
            rw [hl] at hl'; cases hl'
            exact ⟨hg, _, rfl, by omega⟩
        · intro hn; simp at hn
        · intro m hm
          rcases h6 m hm with h | ⟨c', e, he, h⟩ | ⟨e, he, hem, hle⟩
          · exact .inl h
          · refine .inr (.inl ⟨c', e, ?_, h⟩)
            by_cases hcc : c' = c
            · subst hcc
              rw [hon.2] at he
              simp only [upd_same]
              exact he.imp id (by simp)
            · simp only [upd_of_ne _ _ hcc]; exact he
          · have hle := hle l hl
            by_cases hin : e ∈ unread s.entries l
            · exact .inr (.inl ⟨c, e, by simp [hin], hem⟩)
            · refine .inr (.inr ⟨e, he, hem, fun l' hl' => ?_⟩)
              simp only [upd_same, Option.some.injEq] at hl'
              subst hl'
              exact lt_advance (hE.sorted.imp fun h => h.1) he hle hin
    · cases hs
  | put c =>
    ps_cases hs
    rename_i e0 r hon hb
    simp only [List.append_nil]
    have hg : ∀ c', (upd s.subs c { s.subs c with batch := r, buf := (s.subs c).buf ++ [e0] } c').group
        = (s.subs c').group := by
      intro c'; simp only [upd_apply]; split <;> simp_all
    refine ⟨fun c' => by simp only [hg]; exact h1 c', ?_, h3, ?_, h5, ?_⟩
    · intro c' hc'
      simp only [hg] at hc'
      have := h2 c' hc'
      simp only [upd_apply]; split
      · exact ⟨hon, this.2⟩
      · exact this
    · intro c' e he
      simp only [hg]
      refine h4 c' e ?_
      by_cases hcc : c' = c
      · subst hcc
        simp only [upd_same, List.mem_append, List.mem_singleton] at he
        rw [hb]
        rcases he with (he | he) | he | he
        · exact .inl he
        · exact .inr (.inl (by simp [he]))
        · exact .inr (.inl (by simp [he]))
        · exact .inr (.inr he)
      · simpa only [upd_of_ne _ _ hcc] using he
    · intro m hm
      rcases h6 m hm with h | ⟨c', e, he, h⟩ | h
      · exact .inl h
      · refine .inr (.inl ⟨c', e, ?_, h⟩)
        by_cases hcc : c' = c
        · subst hcc
          rw [hb] at he
          simp only [upd_same, List.mem_append, List.mem_singleton]
          rcases he with he | he
          · exact .inl (.inl he)
          · rcases List.mem_cons.1 he with he | he
            · exact .inl (.inr he)
            · exact .inr he
        · simp only [upd_of_ne _ _ hcc]; exact he
      · exact .inr (.inr h)
  | handle c =>
    ps_cases hs
    rename_i e0 r hon ha hb
    have hg : ∀ c', (upd s.subs c { s.subs c with buf := r, ack := some e0 } c').group = (s.subs c').group := by
      intro c'; simp only [upd_apply]; split <;> simp_all
    have hcg := (h4 c e0 (.inl (by rw [hb]; simp))).1
    refine ⟨fun c' => by simp only [hg]; exact h1 c', ?_, h3, ?_, ?_, ?_⟩
    · intro c' hc'
      simp only [hg] at hc'
      have := h2 c' hc'
      refine ⟨?_, List.mem_append_left _ this.2⟩
      simp only [upd_apply]; split
      · exact hon
      · exact this.1
    · intro c' e he
      simp only [hg]
      refine h4 c' e ?_
      by_cases hcc : c' = c
      · subst hcc
        simp only [upd_same, Option.some.injEq] at he
        rw [hb]
        rcases he with he | he | he
        · exact .inl (by simp [he])
        · exact .inr (.inl he)
        · exact .inl (by simp [he])
      · simpa only [upd_of_ne _ _ hcc] using he
    · intro hn; simpa using h5 hn
    · intro m hm
      rcases h6 m (due_same (by simp) (by simp) hm) with h | ⟨c', e, he, h⟩ | h
      · exact .inl (deliveredOn_append _ h)
      · by_cases hcc : c' = c
        · subst hcc
          rw [hb] at he
          rcases he with he | he
          · rcases List.mem_cons.1 he with rfl | he
            · subst h
              exact .inl ⟨c', List.mem_append_left _ (h2 c' hcg).2, by simp⟩
            · exact .inr (.inl ⟨c', e, by simp [he], h⟩)
          · exact .inr (.inl ⟨c', e, by simp [he], h⟩)
        · exact .inr (.inl ⟨c', e, by simp only [upd_of_ne _ _ hcc]; exact he, h⟩)
      · exact .inr (.inr h)
  | del c ok =>
    simp only [step] at hs
    split at hs
    · rename_i e0 hon hack
      cases hs
      simp only [List.append_nil]
      have hg : ∀ c', (upd s.subs c { s.subs c with ack := none } c').group = (s.subs c').group := by
        intro c'; simp only [upd_apply]; split <;> simp_all
      obtain ⟨hcg, l0, hl0, hle0⟩ := h4 c e0 (.inr (.inr hack))
      have hsub : ∀ e, e ∈ (if ok then s.entries.filter (·.id ≠ e0.id) else s.entries) → e ∈ s.entries := by
        intro e he; split at he
        · exact (List.mem_filter.1 he).1
        · exact he
      refine ⟨fun c' => by simp only [hg]; exact h1 c', ?_, fun e he => h3 e (hsub e he), ?_, ?_, ?_⟩
      · intro c' hc'
        simp only [hg] at hc'
        have := h2 c' hc'
        refine ⟨?_, this.2⟩
        simp only [upd_apply]; split
        · exact hon
        · exact this.1
      · intro c' e he
        simp only [hg]
        refine h4 c' e ?_
        by_cases hcc : c' = c
        · subst hcc
          simp only [upd_same] at he
          rcases he with he | he | he
          · exact .inl he
          · exact .inr (.inl he)
          · cases he
        · simpa only [upd_of_ne _ _ hcc] using he
      · intro hn; simp only at hn; rw [hl0] at hn; cases hn
      · intro m hm
        rcases h6 m hm with h | ⟨c', e, he, h⟩ | ⟨e, he, hem, hle⟩
        · exact .inl h
        · refine .inr (.inl ⟨c', e, ?_, h⟩)
          by_cases hcc : c' = c
          · subst hcc; simpa only [upd_same] using he
          · simp only [upd_of_ne _ _ hcc]; exact he
        · refine .inr (.inr ⟨e, ?_, hem, hle⟩)
          have := hle l0 hl0
          simp only
          split
          · rw [List.mem_filter]; exact ⟨he, by simp; omega⟩
          · exact he
    · cases hs
  | close c =>
    simp only [step] at hs
    split at hs
    · rename_i hon
      have aux : ∀ pc cons, InvR g h { s with
          consumers := cons, subs := upd s.subs c { s.subs c with close := pc } } := by
        intro pc cons
        have e1 : ∀ c', (upd s.subs c { s.subs c with close := pc } c').group = (s.subs c').group := by
          intro c'; simp only [upd_apply]; split <;> simp_all
        have e2 : ∀ c', (upd s.subs c { s.subs c with close := pc } c').buf = (s.subs c').buf := by
          intro c'; simp only [upd_apply]; split <;> simp_all
        have e3 : ∀ c', (upd s.subs c { s.subs c with close := pc } c').batch = (s.subs c').batch := by
          intro c'; simp only [upd_apply]; split <;> simp_all
        have e4 : ∀ c', (upd s.subs c { s.subs c with close := pc } c').ack = (s.subs c').ack := by
          intro c'; simp only [upd_apply]; split <;> simp_all
        have e5 : ∀ c', (upd s.subs c { s.subs c with close := pc } c').on = (s.subs c').on := by
          intro c'; simp only [upd_apply]; split <;> simp_all
        refine ⟨?_, ?_, h3, ?_, h5, ?_⟩
        · simpa only [e1] using h1
        · simpa only [e1, e5] using h2
        · simpa only [e1, e2, e3, e4] using h4
        · simpa only [e2, e3] using h6
      split at hs
      · cases hs; simp only [List.append_nil]; exact aux _ _
      · cases hs; simp only [List.append_nil]; exact aux _ _
      · cases hs; exact False.elim (hq (.destroyed _) (List.mem_append_right _ (List.mem_singleton.2 rfl)))
    · cases hs

/-- A channel that was created has a subscriber. -/
theorem some_sub {g : String} (hg0 : g ≠ "") {h : List Ev} {s : State} (hr : sys.Run h s) :
    ∀ b, Ev.group g b ∈ h → ∃ c, (s.subs c).group = g := by
  refine hr.invariant (P := fun h s => ∀ b, Ev.group g b ∈ h → ∃ c, (s.subs c).group = g) (by simp) ?_
  intro h s a s' evs hr' hi hs b hb
  replace hs : step s a = some (s', evs) := hs
  have old : (∃ c, (s.subs c).group = g) → ∃ c, (s'.subs c).group = g := by
    rintro ⟨c, hc⟩
    refine ⟨c, ?_⟩
    cases a <;> ps_cases hs <;> (try simp only [upd_apply]) <;> grind
  rcases List.mem_append.1 hb with hb | hb
  · exact old (hi b hb)
  · cases a <;> ps_cases hs <;> simp at hb
    all_goals
      rename_i c _ _ _ _ _ _ _
      exact ⟨c, by simp [hb.1]⟩

/-! ### A message that is gone for a channel -/

/-- Publication `t` cannot reach channel `g`. -/
structure Gone (g : String) (t : Nat) (h : List Ev) (s : State) : Prop where
  tags : t < s.tags
  entries : ∀ e ∈ s.entries, e.msg.tag ≠ t
  subs : ∀ c, (s.subs c).group = g ∨ (s.subs c).group = "" →
    (∀ e ∈ (s.subs c).buf, e.msg.tag ≠ t) ∧ (∀ e ∈ (s.subs c).batch, e.msg.tag ≠ t) ∧
    ∀ m, Ev.deliver c m ∈ h → m.tag ≠ t
  on : ∀ c g', Ev.sub c g' ∈ h → (s.subs c).group = g' ∧ g' ≠ ""

theorem gone_step {g : String} {t : Nat} {h : List Ev} {s s' : State} {a : Act} {evs : List Ev}
    (hi : Gone g t h s) (hs : step s a = some (s', evs)) : Gone g t (h ++ evs) s' := by
  obtain ⟨h1, h2, h3, h4⟩ := hi
  have hu : ∀ l, ∀ e ∈ unread s.entries l, e.msg.tag ≠ t := fun l e he => h2 e (mem_unread he).1
  cases a <;> ps_cases hs <;> constructor <;>
    (try simp only [upd_apply, List.mem_append, List.mem_cons,
      List.mem_filter]) <;> grind

theorem gone_exec {g : String} {t : Nat} {h : List Ev} {s s' : State} {as : List Act} {k : List Ev}
    (hi : Gone g t h s) (he : sys.exec s as = some (s', k)) : Gone g t (h ++ k) s' := by
  induction as generalizing h s k with
  | nil => simp [Lts.exec] at he; obtain ⟨rfl, rfl⟩ := he; simpa using hi
  | cons a as ih =>
    simp only [Lts.exec] at he
    split at he
    · cases he
    · rename_i s1 e1 hs
      split at he
      · cases he
      · rename_i s2 e2 he2
        simp only [Option.some.injEq, Prod.mk.injEq] at he
        obtain ⟨rfl, rfl⟩ := he
        have := ih (gone_step hi hs) he2
        simpa [List.append_assoc] using this

theorem not_delivered_of_gone {g : String} {m : Msg} {h : List Ev} {s s' : State} {as : List Act} {k : List Ev}
    (hi : Gone g m.tag h s) (he : sys.exec s as = some (s', k)) : ¬ DeliveredOn g m (h ++ k) := by
  rintro ⟨c, hc, hm⟩
  have hg := gone_exec hi he
  exact (hg.subs c (.inl (hg.on c g hc).1)).2.2 m hm rfl

end Braid.PubSub
