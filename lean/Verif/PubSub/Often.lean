import Verif.PubSub.Flow

/-
How often a message can be delivered on a channel (for C39), whatever happens to its group.
-/
namespace Braid.PubSub
open Spec

namespace Spec

/-- The subscribers of channel `g`. -/
def members (g : String) (h : List Ev) : List Nat := h.filterMap fun
  | .sub c g' => if g' = g then some c else none
  | _ => none

/-- How often `m` was delivered on channel `g`. -/
def timesOn (g : String) (m : Msg) (h : List Ev) : Nat :=
  ((members g h).map fun c => (deliveredTo c h).count m).sum

end Spec

theorem mem_members {g : String} {h : List Ev} {c : Nat} : c ∈ members g h ↔ .sub c g ∈ h := by
  simp only [members, List.mem_filterMap]
  constructor
  · rintro ⟨e, he, h1⟩
    cases e <;> simp at h1
    obtain ⟨rfl, rfl⟩ := h1
    exact he
  · intro he
    exact ⟨_, he, by simp⟩

theorem members_append (g : String) (h k : List Ev) : members g (h ++ k) = members g h ++ members g k :=
  List.filterMap_append

/-- A step leaves what is on its way to each subscriber as it is, or it is a read. -/
theorem flow_step {h : List Ev} {s s' : State} {a : Act} {evs : List Ev}
    (hoff : ∀ c, (s.subs c).group = "" → flow h s c = []) (hs : step s a = some (s', evs)) :
    (∀ c, flow (h ++ evs) s' c = flow h s c) ∨
    ∃ c l, (s.subs c).on = true ∧ s.groups (s.subs c).group = some l ∧ evs = [] ∧
      flow h s' c = flow h s c ++ (unread s.entries l).map (·.msg) ∧ (∀ c', c' ≠ c → flow h s' c' = flow h s c') ∧
      s'.entries = s.entries ∧ s'.groups = upd s.groups (s.subs c).group (some (advance l (unread s.entries l))) ∧
      ∀ c', (s'.subs c').group = (s.subs c').group := by
  cases a with
  | pub event body k =>
    simp only [step] at hs
    split at hs <;> cases hs <;> exact .inl fun c => flow_of_ne rfl rfl
  | sub c g fromStart =>
    simp only [step] at hs
    split at hs
    · cases hs
    rename_i hc
    simp only [not_or, ne_eq, Decidable.not_not] at hc
    have hcn := hoff c hc.2.1
    left
    intro c'
    by_cases hcc : c' = c
    · subst hcc
      rw [hcn]
      unfold flow at hcn ⊢
      rw [List.append_eq_nil_iff] at hcn
      split at hs <;> cases hs <;> simp [deliveredTo_append, hcn.1] <;> simp [deliveredTo]
    · split at hs <;> cases hs <;> exact flow_of_ne rfl (upd_of_ne _ _ hcc)
  | read c =>
    simp only [step] at hs
    split at hs
    · rename_i hon
      split at hs
      · cases hs
        exact .inl fun c => flow_of_ne rfl rfl
      · rename_i l hl
        cases hs
        refine .inr ⟨c, l, hon.1, hl, rfl, ?_, ?_, rfl, rfl, ?_⟩
        · simp [flow, hon.2]
        · intro c' hc; simp [flow, upd_of_ne _ _ hc]
        · intro c'; simp only [upd_apply]; split <;> simp_all
    · cases hs
  | put c =>
    ps_cases hs
    rename_i hon e r hb
    left
    intro c'
    by_cases hc : c' = c
    · subst hc; simp [flow, hb]
    · exact flow_of_ne rfl (upd_of_ne _ _ hc)
  | handle c =>
    ps_cases hs
    rename_i hon ha e r hb
    left
    intro c'
    by_cases hc : c' = c
    · subst hc; simp [flow, hb, deliveredTo]
    · exact flow_of_ne (by simp [deliveredTo, Ne.symm hc]) (upd_of_ne _ _ hc)
  | del c ok =>
    simp only [step] at hs
    split at hs
    · cases hs
      left
      intro c'
      by_cases hc : c' = c
      · subst hc; simp [flow]
      · exact flow_of_ne rfl (upd_of_ne _ _ hc)
    · cases hs
  | close c =>
    simp only [step] at hs
    split at hs
    · split at hs
      all_goals
        cases hs
        left
        intro c'
        by_cases hc : c' = c
        · subst hc; simp [flow, deliveredTo]
        · exact flow_of_ne rfl (upd_of_ne _ _ hc)
    · cases hs
  | crash c =>
    ps_cases hs
    left
    intro c'
    by_cases hc : c' = c
    · subst hc; simp [flow, deliveredTo]
    · exact flow_of_ne rfl (upd_of_ne _ _ hc)
  | drop =>
    cases hs
    exact .inl fun c => flow_of_ne rfl rfl

/-- What holds whatever happens to the groups. -/
structure InvU (h : List Ev) (s : State) : Prop where
  off : ∀ c, (s.subs c).group = "" → flow h s c = []
  on : ∀ c g, .sub c g ∈ h → (s.subs c).group = g ∧ g ≠ ""
  back : ∀ c, (s.subs c).group ≠ "" → .sub c (s.subs c).group ∈ h
  pub : ∀ c, ∀ x ∈ flow h s c, x ∈ pubs h
  has : ∀ g, s.groups g ≠ none → ∃ b, .group g b ∈ h
  nodup : ∀ g, (members g h).Nodup

/-- What a step does to the channels of the subscribers. -/
theorem channel_step {s s' : State} {a : Act} {evs : List Ev} (hs : step s a = some (s', evs)) :
    ((∀ c, (s'.subs c).group = (s.subs c).group) ∧ ∀ g, members g evs = []) ∨
    ∃ c g, (s.subs c).group = "" ∧ g ≠ "" ∧ (s'.subs c).group = g ∧ (∀ c', c' ≠ c → s'.subs c' = s.subs c') ∧
      ∀ g', members g' evs = if g = g' then [c] else [] := by
  cases a with
  | sub c g fromStart =>
    simp only [step] at hs
    split at hs
    · cases hs
    rename_i hc
    simp only [not_or, ne_eq, Decidable.not_not] at hc
    right
    refine ⟨c, g, hc.2.1, hc.2.2, ?_⟩
    split at hs <;> cases hs <;> refine ⟨by simp, fun c' hc' => upd_of_ne _ _ hc', ?_⟩ <;>
      (intro g'; by_cases hg : g = g' <;> simp [members, hg])
  | _ =>
    left
    ps_cases hs
    all_goals refine ⟨fun c' => ?_, fun g => by simp [members]⟩
    all_goals (try simp only [upd_apply])
    all_goals (try split)
    all_goals (first | rfl | (rename_i hcc; rw [hcc]))

theorem has_step {h : List Ev} {s s' : State} {a : Act} {evs : List Ev} (hi : ∀ g, s.groups g ≠ none → ∃ b, .group g b ∈ h)
    (hs : step s a = some (s', evs)) : ∀ g, s'.groups g ≠ none → ∃ b, .group g b ∈ h ++ evs := by
  cases a <;> ps_cases hs
  all_goals intro g hg
  all_goals (try simp only [upd_apply] at hg)
  all_goals grind

theorem invU_run {h : List Ev} {s : State} (hr : sys.Run h s) : InvU h s := by
  refine hr.invariant (P := InvU) ?_ ?_
  · refine ⟨?_, ?_, ?_, ?_, ?_, ?_⟩ <;> simp [flow, sys, init, noSub, deliveredTo, members]
  intro h s a s' evs hr' hi hs
  replace hs : step s a = some (s', evs) := hs
  have hE := invE_run hr'
  have hon := hnone hr'
  obtain ⟨i1, i2, i3, i4, i5, i6⟩ := hi
  have hf := flow_step i1 hs
  have hg := channel_step hs
  have hsubs : ∀ c g, .sub c g ∈ h ++ evs ↔ .sub c g ∈ h ∨ c ∈ members g evs := by
    intro c g
    rw [List.mem_append, mem_members]
  refine ⟨?_, ?_, ?_, ?_, has_step i5 hs, ?_⟩
  · intro c hc
    have hc0 : (s.subs c).group = "" := by
      rcases hg with ⟨h1, -⟩ | ⟨c0, g, h1, h2, h3, h4, -⟩
      · rw [← h1]; exact hc
      · by_cases hcc : c = c0
        · subst hcc; exact h1
        · rw [← h4 c hcc]; exact hc
    rcases hf with hf | ⟨c0, l, h1, h2, h3, h4, h5, -⟩
    · rw [hf]; exact i1 c hc0
    · have hcc : c ≠ c0 := by rintro rfl; exact hon c h1 hc0
      rw [h3, List.append_nil, h5 c hcc]; exact i1 c hc0
  · intro c g hcg
    rcases (hsubs c g).1 hcg with h0 | h0
    · rcases hg with ⟨h1, -⟩ | ⟨c0, g0, h1, h2, h3, h4, -⟩
      · rw [h1]; exact i2 c g h0
      · have := i2 c g h0
        have hcc : c ≠ c0 := by rintro rfl; rw [h1] at this; exact this.2 this.1.symm
        rw [h4 c hcc]; exact this
    · rcases hg with ⟨-, h1⟩ | ⟨c0, g0, h1, h2, h3, h4, h5⟩
      · rw [h1] at h0; cases h0
      · rw [h5] at h0
        split at h0
        · rename_i hgg
          subst hgg
          rw [List.mem_singleton.1 h0]
          exact ⟨h3, h2⟩
        · cases h0
  · intro c hc
    rw [hsubs]
    rcases hg with ⟨h1, -⟩ | ⟨c0, g0, h1, h2, h3, h4, h5⟩
    · rw [h1] at hc ⊢; exact .inl (i3 c hc)
    · by_cases hcc : c = c0
      · subst hcc
        right; rw [h5, h3]; simp
      · rw [h4 c hcc] at hc ⊢; exact .inl (i3 c hc)
  · intro c x hx
    rw [pubs_append]
    refine List.mem_append_left _ ?_
    rcases hf with hf | ⟨c0, l, h1, h2, h3, h4, h5, -⟩
    · rw [hf] at hx; exact i4 c x hx
    · rw [h3, List.append_nil] at hx
      by_cases hcc : c = c0
      · subst hcc
        rw [h4] at hx
        rcases List.mem_append.1 hx with hx | hx
        · exact i4 c x hx
        · obtain ⟨e, he, rfl⟩ := List.mem_map.1 hx
          exact hE.mem e (mem_unread he).1
      · rw [h5 c hcc] at hx; exact i4 c x hx
  · intro g
    rw [members_append]
    rcases hg with ⟨-, h1⟩ | ⟨c0, g0, h1, h2, h3, h4, h5⟩
    · rw [h1, List.append_nil]; exact i6 g
    · rw [h5]
      split
      · rename_i hgg
        subst hgg
        refine List.nodup_append.2 ⟨i6 _, by simp, ?_⟩
        intro a ha b hb hab
        rw [List.mem_singleton.1 hb] at hab
        subst hab
        have := i2 _ _ (mem_members.1 ha)
        rw [h1] at this
        exact this.2 this.1.symm
      · rw [List.append_nil]; exact i6 g

/-! ### Counting -/

/-- `m` can still be read on channel `g`. -/
def Pend (s : State) (g : String) (m : Msg) : Prop := ∃ e ∈ s.entries, e.msg = m ∧ ∃ l, s.groups g = some l ∧ l < e.id

open Classical in
/-- 1 if `m` can still be read on channel `g`. -/
noncomputable def pend (s : State) (g : String) (m : Msg) : Nat := if Pend s g m then 1 else 0

/-- How often `m` was read on channel `g`. -/
def tot (h : List Ev) (s : State) (g : String) (m : Msg) : Nat :=
  ((members g h).map fun c => (flow h s c).count m).sum

theorem pend_le {s s' : State} {g : String} {m : Msg} {n : Nat} (h : Pend s' g m → Pend s g m ∨ 0 < n) :
    pend s' g m ≤ pend s g m + n := by
  unfold pend
  by_cases h1 : Pend s' g m
  · rcases h h1 with h2 | h2
    · simp [h1, h2]
    · simp only [h1, if_true]; omega
  · simp [h1]

theorem pend_step {h : List Ev} {s s' : State} {a : Act} {evs : List Ev} (hE : InvE h s) {g : String} {m : Msg}
    (hm : m ∈ pubs h) (hs : step s a = some (s', evs)) : Pend s' g m → Pend s g m ∨ 0 < evs.count (.group g true) := by
  have ht := hE.tags m hm
  rintro ⟨e, he, h1, l, h2, h3⟩
  cases a with
  | pub event body k =>
    simp only [step] at hs
    split at hs
    · cases hs; exact .inl ⟨e, he, h1, l, h2, h3⟩
    · cases hs
      rcases List.mem_append.1 he with he | he
      · exact .inl ⟨e, he, h1, l, h2, h3⟩
      · rw [List.mem_singleton.1 he] at h1
        rw [← h1] at ht
        exact absurd ht (Nat.lt_irrefl _)
  | sub c g' fromStart =>
    simp only [step] at hs
    split at hs
    · cases hs
    split at hs
    · cases hs; exact .inl ⟨e, he, h1, l, h2, h3⟩
    · cases hs
      by_cases hgg : g = g'
      · subst hgg
        simp only [upd_same, Option.some.injEq] at h2
        cases fromStart with
        | true => right; simp
        | false =>
          have := hE.last e he
          simp only [Bool.false_eq_true, if_false] at h2
          omega
      · simp only [upd_of_ne _ _ hgg] at h2
        exact .inl ⟨e, he, h1, l, h2, h3⟩
  | read c =>
    simp only [step] at hs
    split at hs
    · split at hs
      · cases hs; exact .inl ⟨e, he, h1, l, h2, h3⟩
      · rename_i l' hl'
        cases hs
        left
        by_cases hgg : g = (s.subs c).group
        · subst hgg
          simp only [upd_same, Option.some.injEq] at h2
          have := le_advance (l := l') (es := unread s.entries l') fun e he => (mem_unread he).2
          exact ⟨e, he, h1, l', hl', by omega⟩
        · simp only [upd_of_ne _ _ hgg] at h2
          exact ⟨e, he, h1, l, h2, h3⟩
    · cases hs
  | del c ok =>
    simp only [step] at hs
    split at hs
    · cases hs
      left
      simp only at he
      split at he
      · exact ⟨e, (List.mem_filter.1 he).1, h1, l, h2, h3⟩
      · exact ⟨e, he, h1, l, h2, h3⟩
    · cases hs
  | drop =>
    cases hs
    cases he
  | close c =>
    simp only [step] at hs
    split at hs
    · split at hs
      · cases hs; exact .inl ⟨e, he, h1, l, h2, h3⟩
      · cases hs; exact .inl ⟨e, he, h1, l, h2, h3⟩
      · cases hs
        simp only [upd_apply] at h2
        split at h2
        · cases h2
        · exact .inl ⟨e, he, h1, l, h2, h3⟩
    · cases hs
  | _ =>
    ps_cases hs
    all_goals exact .inl ⟨e, he, h1, l, h2, h3⟩

theorem sum_one {f f' : Nat → Nat} {c d : Nat} : ∀ {L : List Nat}, L.Nodup → (∀ x, x ≠ c → f' x = f x) → f' c = f c + d →
    (L.map f').sum = (L.map f).sum + if c ∈ L then d else 0
  | [], _, _, _ => by simp
  | x :: L, hn, h1, h2 => by
    rw [List.nodup_cons] at hn
    have ih := sum_one hn.2 h1 h2
    simp only [List.map_cons, List.sum_cons, ih]
    by_cases hx : x = c
    · subst hx
      simp only [hn.1, if_false, List.mem_cons, true_or, if_true, h2]
      omega
    · rw [h1 x hx]
      have : (c ∈ x :: L) ↔ c ∈ L := by simp [Ne.symm hx]
      simp only [this]
      omega

theorem count_sorted {es : List Entry} (hs : es.Pairwise (fun a b => a.id < b.id ∧ a.msg.tag < b.msg.tag)) (m : Msg) :
    (es.map (·.msg)).count m ≤ 1 := by
  refine List.nodup_iff_count.1 ?_ m
  unfold List.Nodup
  rw [List.pairwise_map]
  exact hs.imp fun h1 h2 => by rw [h2] at h1; exact Nat.lt_irrefl _ h1.2

/-- Reading takes what could be read. -/
theorem read_count {h : List Ev} {s s' : State} (hE : InvE h s) {g : String} {l : Nat} (hl : s.groups g = some l)
    (he : s'.entries = s.entries) (hg : s'.groups g = some (advance l (unread s.entries l))) (m : Msg) :
    ((unread s.entries l).map (·.msg)).count m + pend s' g m ≤ pend s g m := by
  have hsort := hE.sorted.sublist (unread_sublist s.entries l)
  have h1 := count_sorted hsort m
  by_cases hm : m ∈ (unread s.entries l).map (·.msg)
  · obtain ⟨e, h2, rfl⟩ := List.mem_map.1 hm
    have h3 := mem_unread h2
    have hp : Pend s g e.msg := ⟨e, h3.1, rfl, l, hl, h3.2⟩
    have hn : ¬ Pend s' g e.msg := by
      rintro ⟨e', h4, h5, l', h6, h7⟩
      rw [hg] at h6
      cases h6
      rw [he] at h4
      have h8 := le_advance_mem (l := l) (hsort.imp fun h => h.1) h2
      have h9 := tag_lt hE.sorted h3.1 h4 (by omega)
      rw [h5] at h9
      exact Nat.lt_irrefl _ h9
    simp only [pend, hp, hn, if_true, if_false]
    omega
  · rw [List.count_eq_zero.2 hm, Nat.zero_add]
    refine Nat.le_trans (pend_le (s := s) (n := 0) ?_) (Nat.le_refl _)
    rintro ⟨e', h4, h5, l', h6, h7⟩
    rw [hg] at h6
    cases h6
    rw [he] at h4
    have := le_advance (l := l) (es := unread s.entries l) fun e he => (mem_unread he).2
    exact .inl ⟨e', h4, h5, l, hl, by omega⟩

/-- One step, once the message was published. -/
theorem tot_step {h : List Ev} {s s' : State} {a : Act} {evs : List Ev} (hr : sys.Run h s) {g : String} {m : Msg}
    (hm : m ∈ pubs h) (hs : step s a = some (s', evs)) :
    tot (h ++ evs) s' g m + pend s' g m ≤ tot h s g m + pend s g m + evs.count (.group g true) := by
  have hE := invE_run hr
  have hU := invU_run hr
  rcases flow_step hU.off hs with hf | ⟨c, l, h1, h2, rfl, h4, h5, h6, h7, h8⟩
  · have hp := pend_le (pend_step (g := g) hE hm hs)
    have ht : tot (h ++ evs) s' g m = tot h s g m := by
      unfold tot
      simp only [hf, members_append, List.map_append, List.sum_append]
      rcases channel_step hs with ⟨-, hg⟩ | ⟨c, g0, hc, -, -, -, hg⟩
      · simp [hg]
      · rw [hg]
        split
        · simp [hU.off c hc]
        · simp
    omega
  · have hne := hnone hr c h1
    rw [List.append_nil]
    by_cases hg : (s.subs c).group = g
    · have hr := read_count hE (hg ▸ h2) h6 (by rw [h7, hg, upd_same]) m
      have := sum_one (L := members g h) (f := fun x => (flow h s x).count m) (f' := fun x => (flow h s' x).count m)
        (c := c) (d := ((unread s.entries l).map (·.msg)).count m) (hU.nodup g) (fun x hx => by simp only [h5 x hx])
        (by simp only [h4, List.count_append])
      unfold tot
      rw [this]
      split <;> simp only [List.count_nil] <;> omega
    · have hp := pend_le (pend_step (g := g) hE hm hs)
      have hcm : c ∉ members g h := fun hc => hg (hU.on c g (mem_members.1 hc)).1
      have := sum_one (L := members g h) (f := fun x => (flow h s x).count m) (f' := fun x => (flow h s' x).count m)
        (c := c) (d := ((unread s.entries l).map (·.msg)).count m) (hU.nodup g) (fun x hx => by simp only [h5 x hx])
        (by simp only [h4, List.count_append])
      rw [if_neg hcm] at this
      unfold tot
      rw [this]
      omega

theorem tot_base {h : List Ev} {s s' : State} {a : Act} {evs pre h2 : List Ev} (hr : sys.Run h s) {m : Msg}
    (hs : step s a = some (s', evs)) (h4 : evs = pre ++ .pub m :: h2) (g : String) :
    tot (h ++ evs) s' g m + pend s' g m ≤
      (if .group g true ∈ h ++ pre ∨ .group g false ∈ h ++ pre then 1 else 0) + h2.count (.group g true) := by
  have hpub : pre = [] ∧ h2 = [] ∧ m.tag = s.tags ∧ s'.groups = s.groups ∧ s'.subs = s.subs := by
    have hm : .pub m ∈ evs := by rw [h4]; simp
    cases a with
    | pub event body k =>
      simp only [step] at hs
      split at hs <;> cases hs
      · simp at hm
      · simp only [List.mem_singleton, Ev.pub.injEq] at hm
        rcases pre with _ | ⟨x, pre⟩ <;> simp at h4
        subst hm
        exact ⟨rfl, h4.2, rfl, rfl, rfl⟩
    | _ =>
      exfalso
      ps_cases hs
      all_goals simp at hm
  obtain ⟨rfl, rfl, htag, hgr, hsub⟩ := hpub
  have hU := invU_run hr
  have hE := invE_run hr
  have hzero : ∀ c, (flow (h ++ evs) s' c).count m = 0 := by
    intro c
    have hf : flow (h ++ evs) s' c = flow h s c :=
      flow_of_ne (by rw [h4]; simp [deliveredTo]) (by rw [hsub])
    rw [hf]
    refine List.count_eq_zero.2 fun hm => ?_
    have := hE.tags m (hU.pub c m hm)
    omega
  have ht : tot (h ++ evs) s' g m = 0 := by
    unfold tot
    simp only [hzero]
    induction members g (h ++ evs) with
    | nil => rfl
    | cons _ _ ih => simpa using ih
  rw [ht, Nat.zero_add, List.append_nil]
  unfold pend
  by_cases hP : Pend s' g m
  · obtain ⟨e, -, -, l, hl, -⟩ := hP
    obtain ⟨b, hb⟩ := hU.has g (by rw [← hgr, hl]; simp)
    have : .group g true ∈ h ∨ .group g false ∈ h := by cases b <;> simp [hb]
    simp only [this, if_true]
    split <;> omega
  · simp [hP]

theorem tot_run {h : List Ev} {s : State} (hr : sys.Run h s) (g : String) (m : Msg) : ∀ h1 h2, h = h1 ++ .pub m :: h2 →
    tot h s g m + pend s g m ≤
      (if .group g true ∈ h1 ∨ .group g false ∈ h1 then 1 else 0) + h2.count (.group g true) := by
  refine hr.invariant (P := fun h s => ∀ h1 h2, h = h1 ++ .pub m :: h2 → tot h s g m + pend s g m ≤
      (if .group g true ∈ h1 ∨ .group g false ∈ h1 then 1 else 0) + h2.count (.group g true)) ?_ ?_
  · intro h1 h2 he
    simp at he
  intro h s a s' evs hr hi hs h1 h2 he
  replace hs : step s a = some (s', evs) := hs
  rcases List.append_eq_append_iff.1 he with ⟨pre, rfl, h4⟩ | ⟨t, h3, h4⟩
  · exact tot_base hr hs h4 g
  · rcases t with _ | ⟨x, t⟩
    · simp only [List.append_nil] at h3
      subst h3
      have := tot_base (pre := []) (h2 := h2) (m := m) hr hs (by simpa using h4.symm) g
      simpa using this
    · simp only [List.cons_append, List.cons.injEq] at h4
      obtain ⟨rfl, rfl⟩ := h4
      have := hi h1 t h3
      have h5 := tot_step (g := g) (m := m) hr (by rw [h3]; simp [pubs]) hs
      rw [List.count_append]
      omega

end Braid.PubSub
