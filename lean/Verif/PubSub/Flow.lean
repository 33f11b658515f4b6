import Verif.PubSub.Inv

/-
What is on its way to the subscribers, and what was delivered to them.
-/
namespace Braid.PubSub
open Spec

/-- All that was read for subscriber `c`, in order: delivered, buffered, in the batch. -/
def flow (h : List Ev) (s : State) (c : Nat) : List Msg :=
  deliveredTo c h ++ ((s.subs c).buf ++ (s.subs c).batch).map (·.msg)

theorem pairwise_append_of {α : Type} {R : α → α → Prop} {l m : List α} (hl : l.Pairwise R) (hm : m.Pairwise R)
    (h : ∀ a ∈ l, ∀ b ∈ m, R a b) : (l ++ m).Pairwise R := List.pairwise_append.2 ⟨hl, hm, h⟩

theorem mem_unread {es : List Entry} {l : Nat} {e : Entry} (h : e ∈ unread es l) : e ∈ es ∧ l < e.id := by
  have := List.mem_of_mem_take h
  simpa using List.mem_filter.1 this

theorem unread_sublist (es : List Entry) (l : Nat) : (unread es l).Sublist es :=
  (List.take_sublist _ _).trans List.filter_sublist

theorem le_advance {es : List Entry} {l : Nat} (h : ∀ e ∈ es, l < e.id) : l ≤ advance l es := by
  unfold advance
  cases hl : es.getLast? with
  | none => simp
  | some e =>
    have := h e (List.mem_of_getLast? hl)
    simp only [Option.map_some, Option.getD_some]; omega

theorem le_advance_mem {es : List Entry} {l : Nat} (hs : es.Pairwise (fun a b => a.id < b.id)) {e : Entry}
    (h : e ∈ es) : e.id ≤ advance l es := by
  unfold advance
  obtain ⟨es', x, rfl⟩ : ∃ es' x, es = es' ++ [x] := by
    rcases List.eq_nil_or_concat es with rfl | ⟨es', x, rfl⟩
    · cases h
    · exact ⟨es', x, by simp⟩
  simp only [List.getLast?_append, List.getLast?_singleton]
  rw [List.pairwise_append] at hs
  rcases List.mem_append.1 h with h | h
  · exact Nat.le_of_lt (hs.2.2 e h x (by simp))
  · rw [List.mem_singleton.1 h]; simp

structure InvD (h : List Ev) (s : State) : Prop where
  sorted : ∀ c, (flow h s c).Pairwise (fun a b => a.tag < b.tag)
  pub : ∀ c, ∀ x ∈ flow h s c, x ∈ pubs h
  above : ∀ c l, s.groups (s.subs c).group = some l → ∀ x ∈ flow h s c, ∀ e ∈ s.entries, l < e.id →
    x.tag < e.msg.tag
  disj : ∀ c c', c ≠ c' → (s.subs c).group = (s.subs c').group → ∀ x ∈ flow h s c, ∀ y ∈ flow h s c', x.tag ≠ y.tag
  made : ∀ c, ∀ x ∈ flow h s c, ∃ b, Ev.group (s.subs c).group b ∈ h
  off : ∀ c, (s.subs c).group = "" → flow h s c = []
  has : ∀ g, s.groups g ≠ none → ∃ b, Ev.group g b ∈ h
  on : ∀ c g, Ev.sub c g ∈ h → (s.subs c).group = g ∧ g ≠ ""

theorem InvD.congr {h k : List Ev} {s s' : State} (hi : InvD h s)
    (hf : ∀ c, flow (h ++ k) s' c = flow h s c)
    (hg : ∀ c, (s'.subs c).group = (s.subs c).group)
    (he : ∀ e ∈ s'.entries, e ∈ s.entries)
    (hl : ∀ g l, s'.groups g = some l → s.groups g = some l)
    (hp : pubs (h ++ k) = pubs h)
    (hk : ∀ c g, Ev.sub c g ∉ k) : InvD (h ++ k) s' := by
  refine ⟨?_, ?_, ?_, ?_, ?_, ?_, ?_, ?_⟩
  · intro c; rw [hf]; exact hi.sorted c
  · intro c; rw [hf, hp]; exact hi.pub c
  · intro c l hl' x hx e he' hle
    rw [hf] at hx; rw [hg] at hl'
    exact hi.above c l (hl _ _ hl') x hx e (he e he') hle
  · intro c c' hc hgg
    rw [hf, hf]; rw [hg, hg] at hgg
    exact hi.disj c c' hc hgg
  · intro c x hx
    rw [hf] at hx; rw [hg]
    obtain ⟨b, hb⟩ := hi.made c x hx
    exact ⟨b, List.mem_append_left _ hb⟩
  · intro c hc; rw [hg] at hc; rw [hf]; exact hi.off c hc
  · intro g hg'
    cases hgl : s'.groups g with
    | none => exact absurd hgl hg'
    | some l =>
      obtain ⟨b, hb⟩ := hi.has g (by rw [hl g l hgl]; simp)
      exact ⟨b, List.mem_append_left _ hb⟩
  · intro c g hs
    rcases List.mem_append.1 hs with hs | hs
    · rw [hg]; exact hi.on c g hs
    · exact absurd hs (hk c g)

theorem startOnce_prefix {h k : List Ev} (hs : StartOnce (h ++ k)) : StartOnce h := by
  intro pre g post he
  refine hs pre g (post ++ k) ?_
  rw [he]; simp

theorem flow_of_ne {h k : List Ev} {s s' : State} {c' : Nat} (hk : deliveredTo c' k = [])
    (hs : s'.subs c' = s.subs c') : flow (h ++ k) s' c' = flow h s c' := by
  unfold flow; rw [deliveredTo_append, hk, hs]; simp

theorem tag_lt {es : List Entry} (hs : es.Pairwise (fun a b => a.id < b.id ∧ a.msg.tag < b.msg.tag)) {a b : Entry}
    (ha : a ∈ es) (hb : b ∈ es) (hab : a.id < b.id) : a.msg.tag < b.msg.tag := by
  induction hs with
  | nil => cases ha
  | @cons x l hx _ ih =>
    rcases List.mem_cons.1 ha with h1 | h1 <;> rcases List.mem_cons.1 hb with h2 | h2
    · subst h1 h2; omega
    · subst h1; exact (hx b h2).2
    · subst h2; have := (hx a h1).1; omega
    · exact ih h1 h2

/-- A running subscriber is on a channel. -/
theorem hnone {h : List Ev} {s : State} (hr : sys.Run h s) : ∀ c, (s.subs c).on = true → (s.subs c).group ≠ "" := by
  refine hr.invariant (P := fun _ s => ∀ c, (s.subs c).on = true → (s.subs c).group ≠ "") (by simp [sys, init, noSub]) ?_
  intro h s a s' evs _ hi hs
  replace hs : step s a = some (s', evs) := hs
  cases a <;> ps_cases hs
  all_goals (try simp only [upd_apply])
  all_goals grind

theorem invD_run {h : List Ev} {s : State} (hr : sys.Run h s) : StartOnce h → InvD h s := by
  refine hr.invariant (P := fun h s => StartOnce h → InvD h s) ?_ ?_
  · intro _
    refine ⟨?_, ?_, ?_, ?_, ?_, ?_, ?_, ?_⟩ <;> simp [flow, sys, init, noSub, deliveredTo]
  intro h s a s' evs hr' hi0 hs hso
  replace hs : step s a = some (s', evs) := hs
  have hi := hi0 (startOnce_prefix hso)
  have hE := invE_run hr'
  cases a with
  | pub event body k =>
    simp only [step] at hs
    split at hs
    · cases hs
      exact hi.congr (fun c => flow_of_ne rfl rfl) (fun _ => rfl) (fun _ h => h) (fun _ _ h => h) (by simp [pubs])
        (by simp)
    · cases hs
      have hp : pubs (h ++ [Ev.pub ⟨s.tags, event, body⟩]) = pubs h ++ [⟨s.tags, event, body⟩] := by simp [pubs]
      have hf : ∀ c, flow (h ++ [Ev.pub ⟨s.tags, event, body⟩]) { s with
          entries := s.entries ++ [⟨s.last + 1 + k, ⟨s.tags, event, body⟩⟩],
          last := s.last + 1 + k, tags := s.tags + 1 } c = flow h s c := fun c => flow_of_ne rfl rfl
      refine ⟨?_, ?_, ?_, ?_, ?_, ?_, ?_, ?_⟩
      · intro c; rw [hf]; exact hi.sorted c
      · intro c x hx; rw [hf] at hx; rw [hp]; exact List.mem_append_left _ (hi.pub c x hx)
      · intro c l hl x hx e he hle
        rw [hf] at hx
        rcases List.mem_append.1 he with he | he
        · exact hi.above c l hl x hx e he hle
        · rw [List.mem_singleton.1 he]; exact hE.tags x (hi.pub c x hx)
      · intro c c' hc hgg; rw [hf, hf]; exact hi.disj c c' hc hgg
      · intro c x hx; rw [hf] at hx
        obtain ⟨b, hb⟩ := hi.made c x hx; exact ⟨b, List.mem_append_left _ hb⟩
      · intro c hc; rw [hf]; exact hi.off c hc
      · intro g hg; obtain ⟨b, hb⟩ := hi.has g hg; exact ⟨b, List.mem_append_left _ hb⟩
      · intro c g hcg
        exact hi.on c g (by simpa using hcg)
  | sub c g fromStart =>
    simp only [step] at hs
    split at hs
    · cases hs
    rename_i hc
    simp only [not_or, ne_eq, Decidable.not_not] at hc
    obtain ⟨-, hc0, hg0⟩ := hc
    -- the flows do not change
    have main : ∀ (k : List Ev) (gr : String → Option Nat),
        (∀ c', deliveredTo c' k = []) → pubs k = [] → (∀ c' g', Ev.sub c' g' ∈ k → c' = c ∧ g' = g) →
        (∀ g' l, gr g' = some l → s.groups g' = some l ∨ (g' = g ∧ (∃ b, Ev.group g b ∈ k) ∧
          ((∀ b, Ev.group g b ∉ h) ∨ l = s.last))) →
        InvD (h ++ k) { s with subs := upd s.subs c ⟨true, g, [], [], none, .no⟩, groups := gr } := by
      intro k gr hd hpk hsk hgr
      have hcn := hi.off c hc0
      have hf : ∀ c', flow (h ++ k) { s with
          subs := upd s.subs c ⟨true, g, [], [], none, .no⟩, groups := gr } c' = flow h s c' := by
        intro c'
        by_cases hcc : c' = c
        · subst hcc
          rw [hcn]
          unfold flow at hcn ⊢
          rw [List.append_eq_nil_iff] at hcn
          simp [deliveredTo_append, hd, hcn.1]
        · exact flow_of_ne (hd c') (upd_of_ne _ _ hcc)
      have hgc : ∀ c', c' ≠ c → (upd s.subs c ⟨true, g, [], [], none, .no⟩ c').group = (s.subs c').group :=
        fun c' h => by rw [upd_of_ne _ _ h]
      refine ⟨?_, ?_, ?_, ?_, ?_, ?_, ?_, ?_⟩
      · intro c; rw [hf]; exact hi.sorted c
      · intro c'; rw [hf, pubs_append, hpk, List.append_nil]; exact hi.pub c'
      · intro c' l hl x hx e he hle
        rw [hf] at hx
        have hne : c' ≠ c := by rintro rfl; rw [hcn] at hx; cases hx
        simp only [hgc c' hne] at hl
        rcases hgr _ l hl with hl | ⟨hgg, -, h1 | h1⟩
        · exact hi.above c' l hl x hx e he hle
        · obtain ⟨b, hb⟩ := hi.made c' x hx
          rw [hgg] at hb; exact absurd hb (h1 b)
        · have := hE.last e he; omega
      · intro c1 c2 hne hgg x hx y hy
        rw [hf] at hx hy
        have h1 : c1 ≠ c := by rintro rfl; rw [hcn] at hx; cases hx
        have h2 : c2 ≠ c := by rintro rfl; rw [hcn] at hy; cases hy
        simp only [hgc _ h1, hgc _ h2] at hgg
        exact hi.disj c1 c2 hne hgg x hx y hy
      · intro c' x hx
        rw [hf] at hx
        have h1 : c' ≠ c := by rintro rfl; rw [hcn] at hx; cases hx
        simp only [hgc _ h1]
        obtain ⟨b, hb⟩ := hi.made c' x hx; exact ⟨b, List.mem_append_left _ hb⟩
      · intro c' hc'
        rw [hf]
        by_cases hcc : c' = c
        · rw [hcc, hcn]
        · simp only [hgc _ hcc] at hc'; exact hi.off c' hc'
      · intro g' hg'
        cases hgl : gr g' with
        | none => exact absurd hgl hg'
        | some l =>
          rcases hgr g' l hgl with hl | ⟨rfl, ⟨b, hb⟩, -⟩
          · obtain ⟨b, hb⟩ := hi.has g' (by rw [hl]; simp)
            exact ⟨b, List.mem_append_left _ hb⟩
          · exact ⟨b, List.mem_append_right _ hb⟩
      · intro c' g' hcg
        rcases List.mem_append.1 hcg with hcg | hcg
        · have := hi.on c' g' hcg
          have h1 : c' ≠ c := by rintro rfl; rw [hc0] at this; exact this.2 this.1.symm
          simp only [hgc _ h1]; exact this
        · obtain ⟨rfl, rfl⟩ := hsk c' g' hcg
          simp [hg0]
    split at hs
    · cases hs
      exact main _ s.groups (fun _ => rfl) rfl (by simp) (fun _ _ h => .inl h)
    · rename_i hgn
      cases hs
      refine main _ _ (fun _ => rfl) rfl (by simp) ?_
      intro g' l hl
      by_cases hgg : g' = g
      · subst hgg
        refine .inr ⟨rfl, ⟨fromStart, by simp⟩, ?_⟩
        cases fromStart with
        | true => exact .inl (hso h g' [.sub c g'] rfl)
        | false => exact .inr (by simpa using hl.symm)
      · rw [upd_of_ne _ _ hgg] at hl; exact .inl hl
  | read c =>
    simp only [step] at hs
    split at hs
    · rename_i hon
      split at hs
      · cases hs
        exact hi.congr (fun c => flow_of_ne rfl rfl) (fun _ => rfl) (fun _ h => h) (fun _ _ h => h) (by simp)
          (by simp)
      · rename_i l hl
        cases hs
        simp only [List.append_nil]
        generalize (if c ∈ s.consumers (s.subs c).group then s.consumers else _) = cons
        have hes := fun e (he : e ∈ unread s.entries l) => mem_unread he
        have hsub := unread_sublist s.entries l
        generalize hu : unread s.entries l = es at *
        have hsort := hE.sorted.sublist hsub
        have hfc : flow h { s with groups := upd s.groups (s.subs c).group (some (advance l es)), consumers := cons, subs := upd s.subs c { s.subs c with batch := es } } c = flow h s c ++ es.map (·.msg) := by
          simp [flow, hon.2]
        have hfn : ∀ c', c' ≠ c → flow h { s with
            groups := upd s.groups (s.subs c).group (some (advance l es)), consumers := cons, subs := upd s.subs c { s.subs c with batch := es } } c' = flow h s c' := by
          intro c' hc; simp [flow, upd_of_ne _ _ hc]
        have hg : ∀ c', (upd s.subs c { s.subs c with batch := es } c').group = (s.subs c').group := by
          intro c'; rw [upd_apply]; split
          · rename_i h; rw [h]
          · rfl
        have habove : ∀ c', (s.subs c').group = (s.subs c).group → ∀ x ∈ flow h s c', ∀ e ∈ es,
            x.tag < e.msg.tag := fun c' hg' x hx e he =>
          hi.above c' l (by rw [hg']; exact hl) x hx e (hes e he).1 (hes e he).2
        have hmem : ∀ c' x, x ∈ flow h { s with
            groups := upd s.groups (s.subs c).group (some (advance l es)), consumers := cons, subs := upd s.subs c { s.subs c with batch := es } } c' →
            x ∈ flow h s c' ∨ (c' = c ∧ ∃ e ∈ es, e.msg = x) := by
          intro c' x hx
          by_cases hc : c' = c
          · subst hc
            rw [hfc] at hx
            rcases List.mem_append.1 hx with hx | hx
            · exact .inl hx
            · exact .inr ⟨rfl, by simpa using hx⟩
          · rw [hfn c' hc] at hx; exact .inl hx
        refine ⟨?_, ?_, ?_, ?_, ?_, ?_, ?_, ?_⟩
        · intro c'
          by_cases hc : c' = c
          · subst hc
            rw [hfc]
            refine pairwise_append_of (hi.sorted c') ?_ ?_
            · rw [List.pairwise_map]; exact hsort.imp fun h => h.2
            · intro a ha b hb
              obtain ⟨e, he, rfl⟩ := List.mem_map.1 hb
              exact habove c' rfl a ha e he
          · rw [hfn c' hc]; exact hi.sorted c'
        · intro c' x hx
          rcases hmem c' x hx with hx | ⟨-, e, he, rfl⟩
          · exact hi.pub c' x hx
          · exact hE.mem e (hes e he).1
        · intro c' l' hl' x hx e he hle
          simp only [hg] at hl'
          by_cases hgg : (s.subs c').group = (s.subs c).group
          · rw [hgg, upd_same] at hl'
            cases hl'
            have h1 := le_advance (fun e he => (hes e he).2)
            rcases hmem c' x hx with hx | ⟨-, e', he', rfl⟩
            · exact hi.above c' l (by rw [hgg]; exact hl) x hx e he (by omega)
            · have h2 := le_advance_mem (l := l) (hsort.imp fun h => h.1) he'
              exact tag_lt hE.sorted (hes e' he').1 he (by omega)
          · rw [upd_of_ne _ _ hgg] at hl'
            rcases hmem c' x hx with hx | ⟨rfl, -⟩
            · exact hi.above c' l' hl' x hx e he hle
            · exact absurd rfl hgg
        · intro c1 c2 hne hgg x hx y hy
          simp only [hg] at hgg
          have hx' := hmem c1 x hx
          have hy' := hmem c2 y hy
          clear hx hy
          rcases hx' with hx | ⟨hc1, e, he, rfl⟩ <;> rcases hy' with hy | ⟨hc2, e', he', rfl⟩
          · exact hi.disj c1 c2 hne hgg x hx y hy
          · have := habove c1 (hc2 ▸ hgg) x hx e' he'; omega
          · have := habove c2 (hc1 ▸ hgg.symm) y hy e he; omega
          · exact absurd (hc1.trans hc2.symm) hne
        · intro c' x hx
          simp only [hg]
          rcases hmem c' x hx with hx | ⟨rfl, -⟩
          · exact hi.made c' x hx
          · exact hi.has _ (by rw [hl]; simp)
        · intro c' hc'
          simp only [hg] at hc'
          by_cases hc : c' = c
          · subst hc
            have hne := hi.off c' hc'
            exfalso
            exact hnone hr' c' hon.1 hc'
          · rw [hfn c' hc]; exact hi.off c' hc'
        · intro g hg'
          by_cases hgg : g = (s.subs c).group
          · exact hi.has g (by rw [hgg, hl]; simp)
          · simp only [upd_of_ne _ _ hgg] at hg'; exact hi.has g hg'
        · intro c' g hcg
          simp only [hg]; exact hi.on c' g hcg
    · cases hs
  | put c =>
    ps_cases hs
    rename_i hon e r hb
    refine hi.congr ?_ ?_ (fun _ h => h) (fun _ _ h => h) (by simp) (by simp)
    · intro c'
      by_cases hc : c' = c
      · subst hc; simp [flow, hb]
      · exact flow_of_ne rfl (upd_of_ne _ _ hc)
    · intro c'; simp only [upd_apply]; split <;> simp_all
  | handle c =>
    ps_cases hs
    rename_i hon ha e r hb
    refine hi.congr ?_ ?_ (fun _ h => h) (fun _ _ h => h) (by simp [pubs]) (by simp)
    · intro c'
      by_cases hc : c' = c
      · subst hc; simp [flow, hb, deliveredTo]
      · exact flow_of_ne (by simp [deliveredTo, Ne.symm hc]) (upd_of_ne _ _ hc)
    · intro c'; simp only [upd_apply]; split <;> simp_all
  | del c ok =>
    simp only [step] at hs
    split at hs
    · cases hs
      refine hi.congr ?_ ?_ ?_ (fun _ _ h => h) (by simp) (by simp)
      · intro c'
        by_cases hc : c' = c
        · subst hc; simp [flow]
        · exact flow_of_ne rfl (upd_of_ne _ _ hc)
      · intro c'; simp only [upd_apply]; split <;> simp_all
      · intro e he; simp only at he; split at he
        · exact (List.mem_filter.1 he).1
        · exact he
    · cases hs
  | close c =>
    simp only [step] at hs
    split at hs
    · split at hs
      all_goals
        cases hs
        refine hi.congr ?_ ?_ (fun _ h => h) ?_ (by simp [pubs]) (by simp)
        · intro c'
          by_cases hc : c' = c
          · subst hc; simp [flow, deliveredTo]
          · exact flow_of_ne rfl (upd_of_ne _ _ hc)
        · intro c'; simp only [upd_apply]; split <;> simp_all
        · intro g l; simp only [upd_apply]; try split
          all_goals simp
    · cases hs
  | crash c =>
    ps_cases hs
    refine hi.congr ?_ ?_ (fun _ h => h) (fun _ _ h => h) (by simp [pubs]) (by simp)
    · intro c'
      by_cases hc : c' = c
      · subst hc; simp [flow, deliveredTo]
      · exact flow_of_ne rfl (upd_of_ne _ _ hc)
    · intro c'; simp only [upd_apply]; split <;> simp_all
  | drop =>
    cases hs
    exact hi.congr (fun c => flow_of_ne rfl rfl) (fun _ => rfl) (by simp) (by simp) (by simp [pubs]) (by simp)

end Braid.PubSub
