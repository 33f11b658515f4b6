import Verif.PubSub.Rest
import Verif.PubSub.SpecLost

/-
Any number of channels: a message that a channel does not get was delivered on another.
-/
namespace Braid.PubSub
open Spec

def Held (s : State) (c : Nat) (e : Entry) : Prop :=
  e ∈ (s.subs c).buf ∨ e ∈ (s.subs c).batch ∨ (s.subs c).ack = some e

/-- What subscribers hold are entries of the stream, or entries that were deleted. -/
structure InvK (h : List Ev) (s : State) : Prop where
  on : ∀ c, (s.subs c).group ≠ "" → Ev.sub c (s.subs c).group ∈ h
  off : ∀ c, (s.subs c).group = "" → ∀ e, ¬ Held s c e
  last : ∀ c e, Held s c e → e.id ≤ s.last
  same : ∀ c e, Held s c e → ∀ e' ∈ s.entries, e'.id = e.id → e' = e
  ack : ∀ c e, (s.subs c).ack = some e → Ev.deliver c e.msg ∈ h
  live : ∀ c, (s.subs c).on = true → (s.subs c).group ≠ ""

theorem sorted_inj {es : List Entry} (hp : es.Pairwise (fun a b => a.id < b.id)) {e e' : Entry} (he : e ∈ es)
    (he' : e' ∈ es) (hid : e'.id = e.id) : e' = e := by
  induction es with
  | nil => cases he
  | cons x es ih =>
    rw [List.pairwise_cons] at hp
    rcases List.mem_cons.1 he with rfl | h1 <;> rcases List.mem_cons.1 he' with rfl | h2
    · rfl
    · have := hp.1 _ h2; omega
    · have := hp.1 _ h1; omega
    · exact ih hp.2 h1 h2

theorem entries_inj {h : List Ev} {s : State} (hr : sys.Run h s) {e e' : Entry} (he : e ∈ s.entries)
    (he' : e' ∈ s.entries) (hid : e'.id = e.id) : e' = e :=
  sorted_inj ((invE_run hr).sorted.imp fun h => h.1) he he' hid

theorem invK_run {h : List Ev} {s : State} (hr : sys.Run h s) : Ev.dropped ∉ h → InvK h s := by
  refine hr.invariant (P := fun h s => Ev.dropped ∉ h → InvK h s) ?_ ?_
  · intro _
    constructor <;> simp [sys, init, noSub, Held]
  intro h s a s' evs hr' hi0 hs hq
  replace hs : step s a = some (s', evs) := hs
  obtain ⟨h1, h2, h3, h4, h5, h6⟩ := hi0 (fun hx => hq (List.mem_append_left _ hx))
  have hE := (invE_run hr').last
  have hu : ∀ l, ∀ e ∈ unread s.entries l, e ∈ s.entries := fun l e he => (mem_unread he).1
  have hinj := fun e e' he he' => entries_inj hr' (e := e) (e' := e') he he'
  unfold Held at *
  cases a <;> ps_cases hs <;> constructor <;>
    (try simp only [upd_apply, List.mem_append, List.mem_cons, List.mem_filter, Held]) <;> grind

/-! ### One of the channels -/

structure InvL (g : String) (h : List Ev) (s : State) : Prop where
  alive : ∀ c, (s.subs c).group = g → (s.subs c).on = true ∧ Ev.sub c g ∈ h
  ids : ∀ e ∈ s.entries, 0 < e.id
  held : ∀ c e, (s.subs c).group = g → Held s c e → ∃ l, s.groups g = some l ∧ e.id ≤ l
  fresh : s.groups g = none → (∀ b, Ev.group g b ∉ h) ∧
    ∀ m, Ev.pub m ∈ h → (∃ e ∈ s.entries, e.msg = m) ∨ Elsewhere g m h
  kept : ∀ m, Due g m h → DeliveredOn g m h ∨ Elsewhere g m h ∨
    (∃ c e, (s.subs c).group = g ∧ (e ∈ (s.subs c).buf ∨ e ∈ (s.subs c).batch) ∧ e.msg = m) ∨
    ∃ e ∈ s.entries, e.msg = m ∧ ∀ l, s.groups g = some l → l < e.id

theorem elsewhere_append {g : String} {m : Msg} {h : List Ev} (k : List Ev) (hd : Elsewhere g m h) :
    Elsewhere g m (h ++ k) := by
  obtain ⟨g', h1, h2⟩ := hd
  exact ⟨g', h1, deliveredOn_append k h2⟩

theorem steady_prefix {g : String} {h k : List Ev} (hq : Steady g (h ++ k)) : Steady g h :=
  ⟨fun hx => hq.1 (List.mem_append_left _ hx), fun hx => hq.2.1 (List.mem_append_left _ hx),
    fun c hc hx => hq.2.2 c (List.mem_append_left _ hc) (List.mem_append_left _ hx)⟩

theorem due_not_group {g : String} {m : Msg} {h : List Ev} (hn : ∀ b, Ev.group g b ∉ h) : ¬ Due g m h := by
  rintro (⟨pre, post, b, rfl, hb⟩ | ⟨-, hb⟩)
  · exact hn b (List.mem_append_left _ hb)
  · exact hn true hb

/-- A step without `pub` and `group` events. -/
theorem invL_quiet {g : String} {h k : List Ev} {s s' : State} (hi : InvL g h s)
    (hk : ∀ m, Ev.pub m ∉ k) (hk' : ∀ g b, Ev.group g b ∉ k)
    (alive : ∀ c, (s'.subs c).group = g → (s'.subs c).on = true ∧ Ev.sub c g ∈ h ++ k)
    (ent : ∀ e ∈ s'.entries, e ∈ s.entries)
    (held : ∀ c e, (s'.subs c).group = g → Held s' c e → ∃ l, s'.groups g = some l ∧ e.id ≤ l)
    (none_ : s'.groups g = none → s.groups g = none)
    (del : ∀ e ∈ s.entries, e ∈ s'.entries ∨ Elsewhere g e.msg (h ++ k) ∨
      ∃ l, s.groups g = some l ∧ e.id ≤ l)
    (mv : ∀ c e, (s.subs c).group = g → (e ∈ (s.subs c).buf ∨ e ∈ (s.subs c).batch) →
      DeliveredOn g e.msg (h ++ k) ∨ ∃ c, (s'.subs c).group = g ∧ (e ∈ (s'.subs c).buf ∨ e ∈ (s'.subs c).batch))
    (rd : ∀ e ∈ s.entries, (∀ l, s.groups g = some l → l < e.id) → (∀ l, s'.groups g = some l → l < e.id) ∨
      ∃ c, (s'.subs c).group = g ∧ (e ∈ (s'.subs c).buf ∨ e ∈ (s'.subs c).batch)) :
    InvL g (h ++ k) s' := by
  obtain ⟨h1, h2, h3, h4, h5⟩ := hi
  refine ⟨alive, fun e he => h2 e (ent e he), held, ?_, ?_⟩
  · intro hn
    have hn0 := none_ hn
    refine ⟨fun b hb => ?_, fun m hm => ?_⟩
    · rcases List.mem_append.1 hb with hb | hb
      · exact (h4 hn0).1 b hb
      · exact hk' _ _ hb
    · rcases List.mem_append.1 hm with hm | hm
      · rcases (h4 hn0).2 m hm with ⟨e, he, rfl⟩ | h
        · rcases del e he with h | h | ⟨l, hl, -⟩
          · exact .inl ⟨e, h, rfl⟩
          · exact .inr h
          · rw [hn0] at hl; cases hl
        · exact .inr (elsewhere_append _ h)
      · exact absurd hm (hk m)
  · intro m hm
    rcases h5 m (due_same hk hk' hm) with h | h | ⟨c, e, hc, he, rfl⟩ | ⟨e, he, rfl, hl⟩
    · exact .inl (deliveredOn_append _ h)
    · exact .inr (.inl (elsewhere_append _ h))
    · rcases mv c e hc he with h | ⟨c', h, h'⟩
      · exact .inl h
      · exact .inr (.inr (.inl ⟨c', e, h, h', rfl⟩))
    · rcases del e he with h | h | ⟨l, hl0, hle⟩
      · rcases rd e he hl with h' | ⟨c, hc, h'⟩
        · exact .inr (.inr (.inr ⟨e, h, rfl, h'⟩))
        · exact .inr (.inr (.inl ⟨c, e, hc, h', rfl⟩))
      · exact .inr (.inl h)
      · have := hl l hl0; omega

theorem invL_run {g : String} (hg0 : g ≠ "") {h : List Ev} {s : State} (hr : sys.Run h s) :
    Steady g h → InvL g h s := by
  refine hr.invariant (P := fun h s => Steady g h → InvL g h s) ?_ ?_
  · intro _
    refine ⟨?_, by simp [sys, init], by simp [sys, init, noSub, Held], by simp, ?_⟩
    · intro c hc; exact absurd hc.symm (by simpa [sys, init, noSub] using hg0)
    · intro m hm; exact absurd hm (due_not_group (by simp))
  intro h s a s' evs hr' hi0 hs hq
  have hrn : sys.Run (h ++ evs) s' := hr'.step hs
  replace hs : step s a = some (s', evs) := hs
  have hi := hi0 (steady_prefix hq)
  have hE := invE_run hr'
  have hK := invK_run hr' (steady_prefix hq).1
  have ⟨h1, h2, h3, h4, h5⟩ := hi
  cases a with
  | drop => cases hs; exact False.elim (hq.1 (by simp))
  | crash c =>
    ps_cases hs
    rename_i hon
    have hcg : (s.subs c).group ≠ g := fun hc => hq.2.2 c (List.mem_append_left _ (h1 c hc).2) (by simp)
    refine invL_quiet hi (by simp) (by simp) ?_ (fun e he => he) ?_ id (fun e he => .inl he) ?_ ?_
    all_goals (try simp only [upd_apply, Held, List.mem_append, List.mem_singleton]); (try unfold Held at h3); grind
  | pub event body k =>
    simp only [step] at hs
    split at hs
    · cases hs
      refine invL_quiet hi (by simp) (by simp) ?_ (fun e he => he) h3 id (fun e he => .inl he) ?_ ?_
      all_goals grind
    · cases hs
      refine ⟨fun c hc => ⟨(h1 c hc).1, List.mem_append_left _ (h1 c hc).2⟩, ?_, h3, ?_, ?_⟩
      · intro e he
        rcases List.mem_append.1 he with he | he
        · exact h2 e he
        · rw [List.mem_singleton.1 he]; simp; omega
      · intro hn
        refine ⟨fun b => by simpa using (h4 hn).1 b, fun m hm => ?_⟩
        rcases List.mem_append.1 hm with hm | hm
        · rcases (h4 hn).2 m hm with ⟨e, he, rfl⟩ | h
          · exact .inl ⟨e, List.mem_append_left _ he, rfl⟩
          · exact .inr (elsewhere_append _ h)
        · cases (List.mem_singleton.1 hm); exact .inl ⟨_, List.mem_append_right _ (List.mem_singleton.2 rfl), rfl⟩
      · intro m hm
        rcases due_cases hm with hm | ⟨hm, -⟩ | ⟨-, hm⟩
        · rcases h5 m hm with h | h | h | ⟨e, he, h⟩
          · exact .inl (deliveredOn_append _ h)
          · exact .inr (.inl (elsewhere_append _ h))
          · exact .inr (.inr (.inl h))
          · exact .inr (.inr (.inr ⟨e, List.mem_append_left _ he, h⟩))
        · cases (List.mem_singleton.1 hm)
          refine .inr (.inr (.inr ⟨_, List.mem_append_right _ (List.mem_singleton.2 rfl), rfl, fun l hl => ?_⟩))
          have := glast hr' hl
          simp only; omega
        · simp at hm
  | sub c g' fromStart =>
    simp only [step] at hs
    split at hs
    · cases hs
    rename_i hc
    simp only [not_or, ne_eq, Decidable.not_not] at hc
    obtain ⟨-, hc0, -⟩ := hc
    have hempty := hK.off c hc0
    unfold Held at hempty
    split at hs
    · rename_i l0 hl0
      cases hs
      refine invL_quiet hi (by simp) (by simp) ?_ (fun e he => he) ?_ id (fun e he => .inl he) ?_ ?_
      all_goals (try simp only [upd_apply, Held, List.mem_append, List.mem_singleton]); (try unfold Held at h3); grind
    · rename_i hgn
      cases hs
      by_cases hgg : g' = g
      · subst hgg
        refine ⟨?_, h2, ?_, ?_, ?_⟩
        · intro c' hc'
          by_cases hcc : c' = c
          · subst hcc; simp
          · simp only [upd_of_ne _ _ hcc] at hc' ⊢
            exact ⟨(h1 c' hc').1, List.mem_append_left _ (h1 c' hc').2⟩
        · intro c' e hc' he
          by_cases hcc : c' = c
          · subst hcc; simp [Held] at he
          · simp only [upd_of_ne _ _ hcc, Held] at he hc' ⊢
            obtain ⟨l, hl, -⟩ := h3 c' e hc' he
            rw [hgn] at hl; cases hl
        · intro hn; simp at hn
        · intro m hm
          rcases due_cases hm with hm | ⟨hm, -⟩ | ⟨hm, hst⟩
          · exact absurd hm (due_not_group (h4 hgn).1)
          · simp at hm
          · rcases (h4 hgn).2 m hm with ⟨e, he, rfl⟩ | h
            · refine .inr (.inr (.inr ⟨e, he, rfl, fun l hl => ?_⟩))
              have : fromStart = true := by simpa using hst
              subst this
              simp at hl
              have := h2 e he; omega
            · exact .inr (.inl (elsewhere_append _ h))
      · have hd : ∀ m, Due g m (h ++ [Ev.group g' fromStart, Ev.sub c g']) → Due g m h := by
          intro m hm
          rcases due_cases hm with hm | ⟨hm, -⟩ | ⟨-, hm⟩
          · exact hm
          · simp at hm
          · simp [Ne.symm hgg] at hm
        refine ⟨?_, h2, ?_, ?_, fun m hm => ?_⟩
        · simp only [upd_apply, List.mem_append]; grind
        · simp only [upd_apply, Held]; unfold Held at h3; grind
        · intro hn
          simp only [upd_of_ne _ _ (Ne.symm hgg)] at hn
          refine ⟨fun b => by simpa [Ne.symm hgg] using (h4 hn).1 b, fun m hm => ?_⟩
          exact ((h4 hn).2 m (by simpa using hm)).imp id (elsewhere_append _)
        · rcases h5 m (hd m hm) with h | h | ⟨c', e, hc', he, h⟩ | h
          · exact .inl (deliveredOn_append _ h)
          · exact .inr (.inl (elsewhere_append _ h))
          · have hcc : c' ≠ c := by rintro rfl; rw [hc0] at hc'; exact hg0 hc'.symm
            exact .inr (.inr (.inl ⟨c', e, by simp only [upd_of_ne _ _ hcc]; exact hc',
              by simp only [upd_of_ne _ _ hcc]; exact he, h⟩))
          · simp only [upd_of_ne _ _ (Ne.symm hgg)]; exact .inr (.inr (.inr h))
  | read c =>
    simp only [step] at hs
    split at hs
    · rename_i hon
      split at hs
      · cases hs
        simp only [List.append_nil]
        exact hi
      · rename_i l hl
        cases hs
        generalize (if c ∈ s.consumers (s.subs c).group then s.consumers else _) = cons
        have hes := fun e (he : e ∈ unread s.entries l) => mem_unread he
        have hadv := fun e (he : e ∈ unread s.entries l) => le_advance_mem (l := l)
          ((hE.sorted.sublist (unread_sublist s.entries l)).imp fun h => h.1) he
        have hge : l ≤ advance l (unread s.entries l) := le_advance fun e he => (hes e he).2
        by_cases hcg : (s.subs c).group = g
        · rw [hcg] at hl ⊢
          refine invL_quiet hi (by simp) (by simp) ?_ (fun e he => he) ?_ (by simp) (fun e he => .inl he) ?_ ?_
          · simp only [upd_apply, List.append_nil]; grind
          · simp only [upd_apply, Held]; unfold Held at h3; grind
          · simp only [upd_apply]; grind
          · intro e he hle
            have hle := hle l hl
            by_cases hin : e ∈ unread s.entries l
            · exact .inr ⟨c, by simp, by simp [hin]⟩
            · refine .inl fun l' hl' => ?_
              simp only [upd_same, Option.some.injEq] at hl'
              subst hl'
              exact lt_advance (hE.sorted.imp fun h => h.1) he hle hin
        · refine invL_quiet hi (by simp) (by simp) ?_ (fun e he => he) ?_ ?_ (fun e he => .inl he) ?_ ?_
          all_goals (try simp only [upd_apply, Held, List.append_nil]); (try unfold Held at h3); grind
    · cases hs
  | put c =>
    ps_cases hs
    rename_i e0 r hon hb
    refine invL_quiet hi (by simp) (by simp) ?_ (fun e he => he) ?_ id (fun e he => .inl he) ?_ ?_
    · simp only [upd_apply, List.append_nil]; grind
    · simp only [upd_apply, Held]; unfold Held at h3; grind
    · intro c' e hc' he
      refine .inr ⟨c', ?_, ?_⟩ <;> simp only [upd_apply] <;> grind
    · exact fun e he hle => .inl hle
  | handle c =>
    ps_cases hs
    rename_i e0 r hon ha hb
    refine invL_quiet hi (by simp) (by simp) ?_ (fun e he => he) ?_ id (fun e he => .inl he) ?_ ?_
    · simp only [upd_apply, List.mem_append]; grind
    · simp only [upd_apply, Held]; unfold Held at h3; grind
    · intro c' e hc' he
      by_cases hx : c' = c ∧ e = e0
      · obtain ⟨rfl, rfl⟩ := hx
        exact .inl ⟨c', List.mem_append_left _ (h1 c' hc').2, by simp⟩
      · refine .inr ⟨c', ?_, ?_⟩ <;> simp only [upd_apply] <;> grind
    · exact fun e he hle => .inl hle
  | del c ok =>
    simp only [step] at hs
    split at hs
    · rename_i e0 hon hack
      cases hs
      refine invL_quiet hi (by simp) (by simp) ?_ ?_ ?_ id ?_ ?_ ?_
      · simp only [upd_apply, List.append_nil]; grind
      · intro e he; simp only at he; split at he
        · exact (List.mem_filter.1 he).1
        · exact he
      · simp only [upd_apply, Held]; unfold Held at h3; grind
      · intro e he
        by_cases hid : e.id = e0.id
        · by_cases hcg : (s.subs c).group = g
          · obtain ⟨l, hl, hle⟩ := h3 c e0 hcg (.inr (.inr hack))
            exact .inr (.inr ⟨l, hl, by omega⟩)
          · have he0 := hK.same c e0 (.inr (.inr hack)) e he hid
            subst he0
            exact .inr (.inl ⟨_, hcg, c, List.mem_append_left _ (hK.on c (hK.live c hon)),
              List.mem_append_left _ (hK.ack c e hack)⟩)
        · left; simp only; split
          · rw [List.mem_filter]; exact ⟨he, by simp [hid]⟩
          · exact he
      · intro c' e hc' he
        refine .inr ⟨c', ?_, ?_⟩ <;> simp only [upd_apply] <;> grind
      · exact fun e he hle => .inl hle
    · cases hs
  | close c =>
    simp only [step] at hs
    split at hs
    · rename_i hon
      split at hs
      · cases hs
        refine invL_quiet hi (by simp) (by simp) ?_ (fun e he => he) ?_ id (fun e he => .inl he) ?_ ?_
        all_goals (try simp only [upd_apply, Held, List.append_nil]); (try unfold Held at h3); grind
      · cases hs
        refine invL_quiet hi (by simp) (by simp) ?_ (fun e he => he) ?_ id (fun e he => .inl he) ?_ ?_
        all_goals (try simp only [upd_apply, Held, List.append_nil]); (try unfold Held at h3); grind
      · cases hs
        have hcg : (s.subs c).group ≠ g := by
          rintro rfl; exact hq.2.1 (by simp)
        refine invL_quiet hi (by simp) (by simp) ?_ (fun e he => he) ?_ ?_ (fun e he => .inl he) ?_ ?_
        all_goals (try simp only [upd_apply, Held, List.mem_append, List.mem_singleton]); (try unfold Held at h3); grind
    · cases hs

end Braid.PubSub
