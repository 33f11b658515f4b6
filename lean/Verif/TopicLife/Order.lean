import Verif.TopicLife.Inv

/-
Order of what the subscribers of a channel receive.
-/
namespace Braid.TopicLife
open Spec

/-- Events of calls. -/
def Plain : Ev → Prop
  | .begin _ _ => True
  | .finish _ _ _ => True
  | .fault _ _ => True
  | _ => False

/-- The stream is gone. -/
def Gone : Ev → Prop
  | .erased _ _ _ => True
  | .expired => True
  | _ => False

/-- The kinds of steps. -/
inductive Kind (s s' : State) (evs : List Ev) : Prop
  | less (hn : s'.next = s.next) (he : ∀ e ∈ evs, Plain e)
      (ht : ∀ t', s'.stream = some t' → ∃ t, s.stream = some t ∧ t'.entries.Sublist t.entries ∧ t'.groups = t.groups ∧ t'.last = t.last)
      (hk : ∀ t, s.stream = some t → ∃ t', s'.stream = some t')
  | gone (hn : s'.next = s.next) (e0 : Ev) (rest : List Ev) (he : evs = e0 :: rest) (h0 : Gone e0) (hp : ∀ e ∈ rest, Plain e)
      (ht : s'.stream = none)
  | add (c : Content) (rest : List Ev) (he : evs = .added c :: rest) (hp : ∀ e ∈ rest, Plain e)
      (hc : c = .new ∨ ∃ e b, c = .msg s.next e b) (hs : s'.stream = (xadd s c).stream) (hn : s'.next = s.next + 1)
  | group (t : Stream) (grp : String) (l : Nat) (rest : List Ev) (he : evs = .grouped grp :: rest) (hp : ∀ e ∈ rest, Plain e)
      (ht : s.stream = some t) (hl : lastOf t.groups grp = none) (hle : l ≤ t.last)
      (hs : s'.stream = some { t with groups := t.groups ++ [(grp, l)] }) (hn : s'.next = s.next)
  | read (t : Stream) (grp : String) (l : Nat) (x : Nat × Content) (he : evs = [.got grp x.2]) (ht : s.stream = some t)
      (hl : lastOf t.groups grp = some l) (hf : t.entries.find? (l < ·.1) = some x)
      (hs : s'.stream = some { t with groups := advance t.groups grp x.1 }) (hn : s'.next = s.next)

theorem kind {s s' : State} {a : Act} {evs : List Ev} (hs : step s a = some (s', evs)) : Kind s s' evs := by
  have same : ∀ {g : Nat} {p : Pc} {evs : List Ev}, (∀ e ∈ evs, Plain e) → Kind s (at_ s g p) evs := fun he =>
    .less rfl he (fun t h => ⟨t, h, List.Sublist.refl _, rfl, rfl⟩) (fun t h => ⟨t, h⟩)
  have hxd : ∀ id t', (xdel s id).stream = some t' → ∃ t, s.stream = some t ∧ t'.entries.Sublist t.entries ∧
      t'.groups = t.groups ∧ t'.last = t.last := by
    intro id t' h1
    simp only [xdel, Option.map_eq_some_iff] at h1
    obtain ⟨t, h2, h3⟩ := h1
    subst h3
    exact ⟨t, h2, List.filter_sublist, rfl, rfl⟩
  have hxk : ∀ id t, s.stream = some t → ∃ t', (xdel s id).stream = some t' := fun id t h => ⟨_, by simp only [xdel, h]; rfl⟩
  cases a with
  | start g o => tl_cases hs; exact same (by simp [Plain])
  | expire =>
    tl_cases hs
    exact .gone rfl .expired [] rfl trivial (by simp) rfl
  | del grp id =>
    tl_cases hs
    exact .less rfl (by simp) (hxd id) (hxk id)
  | read grp =>
    simp only [step] at hs
    split at hs
    · cases hs
    · rename_i t hst
      split at hs
      · cases hs
      · rename_i l hl
        split at hs
        · cases hs
        · rename_i e he
          cases hs
          exact .read t grp l e rfl hst hl he rfl rfl
  | go g net =>
    tl_cases hs
    all_goals first
      | exact same (by simp [Plain])
      | exact .less rfl (by simp [Plain]) (hxd _) (hxk _)
      | exact .add .new _ rfl (by simp [Plain]) (.inl rfl) rfl rfl
      | exact .add _ _ rfl (by simp [Plain]) (.inr ⟨_, _, rfl⟩) rfl rfl
      | exact .gone rfl _ _ rfl trivial (by simp [Plain]) rfl
      | skip
    all_goals
      refine .group _ _ _ _ rfl ?_ ‹s.stream = some _› ‹lastOf _ _ = none› ?_ rfl rfl
      · try split
        all_goals simp [Plain]
      · first | exact Nat.zero_le _ | exact Nat.le_refl _ | (split <;> simp)

theorem lastOf_advance (gs : List (String × Nat)) (grp grp' : String) (id : Nat) :
    lastOf (advance gs grp id) grp' = if grp' = grp then (lastOf gs grp').map (fun _ => id) else lastOf gs grp' := by
  induction gs with
  | nil => simp [advance, lastOf]
  | cons p gs ih =>
    simp only [advance, lastOf, List.map_cons] at ih ⊢
    by_cases h1 : p.1 = grp
    · simp only [h1, if_true]
      by_cases h2 : grp' = grp
      · subst h2; simp [List.lookup, h1]
      · simp only [h2, if_false] at ih ⊢
        simp only [List.lookup, h1, show (grp' == grp) = false by simp [h2]]
        exact ih
    · simp only [h1, if_false]
      simp only [List.lookup]
      by_cases h3 : grp' = p.1
      · rw [h3]; simp [h1]
      · rw [show (grp' == p.1) = false by simp [h3]]; exact ih

theorem lastOf_append {gs : List (String × Nat)} {grp : String} (h : lastOf gs grp = none) (l : Nat) (grp' : String) :
    lastOf (gs ++ [(grp, l)]) grp' = if grp' = grp then some l else lastOf gs grp' := by
  unfold lastOf at *
  induction gs with
  | nil =>
    by_cases h2 : grp' = grp
    · simp [h2]
    · simp [List.lookup, h2, show (grp' == grp) = false by simp [h2]]
  | cons p gs ih =>
    simp only [List.lookup, List.cons_append] at *
    split at h
    · cases h
    · rename_i hp
      by_cases h3 : grp' = p.1
      · subst h3
        have : p.1 ≠ grp := fun e => by simp [e] at hp
        simp [this]
      · rw [show (grp' == p.1) = false by simp [h3]]; exact ih h

/-- Ids grow, and tell what a channel has received. -/
structure OInv (h : List Ev) (s : State) : Prop where
  srt : ∀ t, s.stream = some t → t.entries.Pairwise (·.1 < ·.1)
  lt : ∀ t, s.stream = some t → ∀ x ∈ t.entries, x.1 < s.next
  last : ∀ t, s.stream = some t → t.last < s.next
  grp : ∀ t, s.stream = some t → ∀ grp l, lastOf t.groups grp = some l → l < s.next
  tag : ∀ t, s.stream = some t → ∀ x ∈ t.entries, ∀ n e b, x.2 = .msg n e b → n = x.1
  adds : ∀ n e b, .added (.msg n e b) ∈ h → n < s.next
  ord : ∀ h1 h2 n e b, h = h1 ++ .added (.msg n e b) :: h2 → ∀ n' e' b', .added (.msg n' e' b') ∈ h1 → n' < n
  gots : ∀ grp n e b, .got grp (.msg n e b) ∈ h → n < s.next ∧ ∀ t, s.stream = some t → ∀ x ∈ t.entries,
    n < x.1 ∨ ∃ l, lastOf t.groups grp = some l ∧ n ≤ l
  gord : ∀ h1 h2 grp n e b, h = h1 ++ .got grp (.msg n e b) :: h2 → ∀ n' e' b', .got grp (.msg n' e' b') ∈ h1 → n' < n
  due : ∀ h1 h2 grp, h = h1 ++ .grouped grp :: h2 → (∀ e ∈ h2, ¬ Gone e) → ∃ t l, s.stream = some t ∧
    lastOf t.groups grp = some l ∧ ∀ x ∈ t.entries, x.2 ≠ .new → .added x.2 ∈ h2 → l < x.1 ∨ .got grp x.2 ∈ h2
  pos : 0 < s.next

/-- Splitting at an event that is in the first part. -/
theorem split_app {h evs h1 h2 : List Ev} {e : Ev} (he : h ++ evs = h1 ++ e :: h2) :
    (∃ r, h = h1 ++ e :: r ∧ h2 = r ++ evs) ∨ ∃ p, h1 = h ++ p ∧ evs = p ++ e :: h2 := by
  rcases List.append_eq_append_iff.1 he with ⟨p, h3, h4⟩ | ⟨r, h3, h4⟩
  · exact .inr ⟨p, h3, h4⟩
  · cases r with
    | nil => refine .inr ⟨[], by simpa using h3.symm, by simpa using h4.symm⟩
    | cons x r =>
      simp only [List.cons_append, List.cons.injEq] at h4
      obtain ⟨rfl, h4⟩ := h4
      exact .inl ⟨r, h3, h4⟩

/-- Splitting a step's events at their first, the only one of its kind. -/
theorem split_head {rest p h2 : List Ev} {e e0 : Ev} (hp : ∀ x ∈ rest, Plain x) (he : e0 :: rest = p ++ e :: h2) (hne : ¬ Plain e) :
    p = [] ∧ e = e0 ∧ h2 = rest := by
  cases p with
  | nil => simp only [List.nil_append, List.cons.injEq] at he; exact ⟨rfl, he.1.symm, he.2.symm⟩
  | cons x p =>
    simp only [List.cons_append, List.cons.injEq] at he
    exact absurd (hp e (by rw [he.2]; simp)) hne

theorem not_plain {evs p h2 : List Ev} {e : Ev} (hp : ∀ x ∈ evs, Plain x) (he : evs = p ++ e :: h2) (hne : ¬ Plain e) : False :=
  hne (hp e (by rw [he]; simp))

theorem oinv_run {h : List Ev} {s : State} (hr : sys.Run h s) : OInv h s := by
  refine hr.invariant (P := OInv) (by constructor <;> simp [sys, init]) ?_
  intro h s a s' evs _ i hs
  replace hs : step s a = some (s', evs) := hs
  obtain ⟨i1, i2, i3, i4, i5, i6, i7, i8, i9, i10, i11⟩ := i
  cases kind hs with
  | less hn he ht hk =>
    have nm : ∀ e, ¬ Plain e → e ∈ h ++ evs → e ∈ h := fun e hne hm =>
      (List.mem_append.1 hm).resolve_right fun h2 => hne (he e h2)
    constructor
    · intro t' h1; obtain ⟨t, h2, h3, _⟩ := ht t' h1; exact (i1 t h2).sublist h3
    · intro t' h1 x hx; obtain ⟨t, h2, h3, _⟩ := ht t' h1; rw [hn]; exact i2 t h2 x (h3.subset hx)
    · intro t' h1; obtain ⟨t, h2, _, _, h5⟩ := ht t' h1; rw [hn, h5]; exact i3 t h2
    · intro t' h1 grp l hl; obtain ⟨t, h2, _, h4, _⟩ := ht t' h1; rw [hn]; rw [h4] at hl; exact i4 t h2 grp l hl
    · intro t' h1 x hx; obtain ⟨t, h2, h3, _⟩ := ht t' h1; exact i5 t h2 x (h3.subset hx)
    · intro n e b hm; rw [hn]; exact i6 n e b (nm _ (by simp [Plain]) hm)
    · intro h1 h2 n e b hh n' e' b' hm
      rcases split_app hh with ⟨r, h3, _⟩ | ⟨p, h3, h4⟩
      · exact i7 h1 r n e b h3 n' e' b' hm
      · exact (not_plain he h4 (by simp [Plain])).elim
    · intro grp n e b hm
      obtain ⟨h3, h4⟩ := i8 grp n e b (nm _ (by simp [Plain]) hm)
      refine ⟨by rw [hn]; exact h3, fun t' h1 x hx => ?_⟩
      obtain ⟨t, h2, h5, h6, _⟩ := ht t' h1
      rw [h6]; exact h4 t h2 x (h5.subset hx)
    · intro h1 h2 grp n e b hh n' e' b' hm
      rcases split_app hh with ⟨r, h3, _⟩ | ⟨p, h3, h4⟩
      · exact i9 h1 r grp n e b h3 n' e' b' hm
      · exact (not_plain he h4 (by simp [Plain])).elim
    · intro h1 h2 grp hh hg
      rcases split_app hh with ⟨r, h3, rfl⟩ | ⟨p, h3, h4⟩
      · obtain ⟨t, l, ha, hb, hc⟩ := i10 h1 r grp h3 fun e he => hg e (List.mem_append_left _ he)
        obtain ⟨t', ha'⟩ := hk t ha
        obtain ⟨t2, h2, h5, h6, _⟩ := ht t' ha'
        rw [ha] at h2; cases h2
        refine ⟨t', l, ha', by rw [h6]; exact hb, fun x hx hne hm => ?_⟩
        have hm : Ev.added x.2 ∈ r := (List.mem_append.1 hm).resolve_right fun h2 => absurd (he _ h2) (by simp [Plain])
        rcases hc x (h5.subset hx) hne hm with h7 | h7
        · exact .inl h7
        · exact .inr (List.mem_append_left _ h7)
      · exact (not_plain he h4 (by simp [Plain])).elim
    · rw [hn]; exact i11
  | gone hn e0 rest he h0 hp ht =>
    subst he
    have nm : ∀ e, ¬ Plain e → ¬ Gone e → e ∈ h ++ e0 :: rest → e ∈ h := fun e hne hng hm =>
      (List.mem_append.1 hm).resolve_right fun h2 => by
        rcases List.mem_cons.1 h2 with h2 | h2
        · exact hng (h2 ▸ h0)
        · exact hne (hp e h2)
    constructor
    · intro t' h1; rw [ht] at h1; cases h1
    · intro t' h1; rw [ht] at h1; cases h1
    · intro t' h1; rw [ht] at h1; cases h1
    · intro t' h1; rw [ht] at h1; cases h1
    · intro t' h1; rw [ht] at h1; cases h1
    · intro n e b hm; rw [hn]; exact i6 n e b (nm _ (by simp [Plain]) (by simp [Gone]) hm)
    · intro h1 h2 n e b hh n' e' b' hm
      rcases split_app hh with ⟨r, h3, _⟩ | ⟨p, h3, h4⟩
      · exact i7 h1 r n e b h3 n' e' b' hm
      · obtain ⟨_, h5, _⟩ := split_head hp h4 (by simp [Plain]); rw [← h5] at h0; exact h0.elim
    · intro grp n e b hm
      refine ⟨by rw [hn]; exact (i8 grp n e b (nm _ (by simp [Plain]) (by simp [Gone]) hm)).1, fun t' h1 => ?_⟩
      rw [ht] at h1; cases h1
    · intro h1 h2 grp n e b hh n' e' b' hm
      rcases split_app hh with ⟨r, h3, _⟩ | ⟨p, h3, h4⟩
      · exact i9 h1 r grp n e b h3 n' e' b' hm
      · obtain ⟨_, h5, _⟩ := split_head hp h4 (by simp [Plain]); rw [← h5] at h0; exact h0.elim
    · intro h1 h2 grp hh hg
      rcases split_app hh with ⟨r, h3, rfl⟩ | ⟨p, h3, h4⟩
      · exact absurd h0 (hg e0 (by simp))
      · obtain ⟨_, h5, _⟩ := split_head hp h4 (by simp [Plain]); rw [← h5] at h0; exact h0.elim
    · rw [hn]; exact i11
  | add c rest he hp hc hst hn =>
    subst he
    have hold : ∀ x, x ∈ (s.stream.getD ⟨[], 0, []⟩).entries → ∃ t, s.stream = some t ∧ x ∈ t.entries := by
      intro x hx
      cases hst : s.stream with
      | none => rw [hst] at hx; cases hx
      | some t => rw [hst] at hx; exact ⟨t, rfl, hx⟩
    have hlo : ∀ grp l, lastOf (s.stream.getD ⟨[], 0, []⟩).groups grp = some l → ∃ t, s.stream = some t ∧ lastOf t.groups grp = some l := by
      intro grp l hl
      cases hst : s.stream with
      | none => rw [hst] at hl; cases hl
      | some t => rw [hst] at hl; exact ⟨t, rfl, hl⟩
    have nm : ∀ e, ¬ Plain e → (∀ c, e ≠ .added c) → e ∈ h ++ Ev.added c :: rest → e ∈ h := fun e hne hng hm =>
      (List.mem_append.1 hm).resolve_right fun h2 => by
        rcases List.mem_cons.1 h2 with h2 | h2
        · exact hng _ h2
        · exact hne (hp e h2)
    constructor
    · intro t' h1
      rw [hst] at h1; simp only [xadd, Option.some.injEq] at h1; subst h1
      refine List.pairwise_append.2 ⟨?_, by simp, ?_⟩
      · cases hst2 : s.stream with
        | none => simp
        | some t => exact i1 t hst2
      · intro x hx y hy
        simp only [List.mem_singleton] at hy; subst hy
        obtain ⟨t, h2, h3⟩ := hold x hx
        exact i2 t h2 x h3
    · intro t' h1 x hx
      rw [hst] at h1; simp only [xadd, Option.some.injEq] at h1; subst h1
      rw [hn]
      rcases List.mem_append.1 hx with hx | hx
      · obtain ⟨t, h2, h3⟩ := hold x hx
        have := i2 t h2 x h3; omega
      · simp only [List.mem_singleton] at hx; subst hx; simp
    · intro t' h1
      rw [hst] at h1; simp only [xadd, Option.some.injEq] at h1; subst h1
      rw [hn]; simp
    · intro t' h1 grp l hl
      rw [hst] at h1; simp only [xadd, Option.some.injEq] at h1; subst h1
      obtain ⟨t, h2, h3⟩ := hlo grp l hl
      have := i4 t h2 grp l h3
      omega
    · intro t' h1 x hx n e b hxc
      rw [hst] at h1; simp only [xadd, Option.some.injEq] at h1; subst h1
      rcases List.mem_append.1 hx with hx | hx
      · obtain ⟨t, h2, h3⟩ := hold x hx
        exact i5 t h2 x h3 n e b hxc
      · simp only [List.mem_singleton] at hx; subst hx
        rcases hc with hc | ⟨e', b', hc⟩
        · rw [hc] at hxc; cases hxc
        · rw [hc] at hxc; cases hxc; rfl
    · intro n e b hm
      rw [hn]
      rcases List.mem_append.1 hm with hm | hm
      · have := i6 n e b hm; omega
      · rcases List.mem_cons.1 hm with hm | hm
        · rcases hc with hc | ⟨e', b', hc⟩
          · rw [hc] at hm; cases hm
          · rw [hc] at hm; cases hm; omega
        · exact absurd (hp _ hm) (by simp [Plain])
    · intro h1 h2 n e b hh n' e' b' hm
      rcases split_app hh with ⟨r, h3, _⟩ | ⟨p, h3, h4⟩
      · exact i7 h1 r n e b h3 n' e' b' hm
      · obtain ⟨rfl, h5, _⟩ := split_head hp h4 (by simp [Plain])
        rw [List.append_nil] at h3; subst h3
        have h6 := i6 n' e' b' hm
        rcases hc with hc | ⟨e2, b2, hc⟩
        · rw [hc] at h5; cases h5
        · rw [hc] at h5; cases h5; exact h6
    · intro grp n e b hm
      obtain ⟨h3, h4⟩ := i8 grp n e b (nm _ (by simp [Plain]) (by simp) hm)
      refine ⟨by omega, fun t' h1 x hx => ?_⟩
      rw [hst] at h1; simp only [xadd, Option.some.injEq] at h1; subst h1
      rcases List.mem_append.1 hx with hx | hx
      · obtain ⟨t, h2, h5⟩ := hold x hx
        rcases h4 t h2 x h5 with h6 | h6
        · exact .inl h6
        · right; simpa [h2] using h6
      · simp only [List.mem_singleton] at hx; subst hx; exact .inl h3
    · intro h1 h2 grp n e b hh n' e' b' hm
      rcases split_app hh with ⟨r, h3, _⟩ | ⟨p, h3, h4⟩
      · exact i9 h1 r grp n e b h3 n' e' b' hm
      · obtain ⟨_, h5, _⟩ := split_head hp h4 (by simp [Plain]); cases h5
    · intro h1 h2 grp hh hg
      rcases split_app hh with ⟨r, h3, rfl⟩ | ⟨p, h3, h4⟩
      · obtain ⟨t, l, ha, hb, hd⟩ := i10 h1 r grp h3 fun e he => hg e (List.mem_append_left _ he)
        refine ⟨_, l, hst, by simpa [xadd, ha] using hb, fun x hx hne hm => ?_⟩
        have hx : x ∈ t.entries ∨ x = (s.next, c) := by simpa [xadd, ha] using hx
        have hl := i4 t ha grp l hb
        rcases hx with hx | rfl
        · rcases List.mem_append.1 hm with hm | hm
          · rcases hd x hx hne hm with h7 | h7
            · exact .inl h7
            · exact .inr (List.mem_append_left _ h7)
          · rcases List.mem_cons.1 hm with hm | hm
            · exfalso
              simp only [Ev.added.injEq] at hm
              rcases hc with hc | ⟨e2, b2, hc⟩
              · exact hne (hm.trans hc)
              · have h8 := i5 t ha x hx _ _ _ (hm.trans hc)
                have h9 := i2 t ha x hx
                omega
            · exact absurd (hp _ hm) (by simp [Plain])
        · exact .inl hl
      · obtain ⟨_, h5, _⟩ := split_head hp h4 (by simp [Plain]); cases h5
    · omega
  | group t grp l rest he hp ht hl hle hst hn =>
    subst he
    have nm : ∀ e, ¬ Plain e → (∀ c, e ≠ .grouped c) → e ∈ h ++ Ev.grouped grp :: rest → e ∈ h := fun e hne hng hm =>
      (List.mem_append.1 hm).resolve_right fun h2 => by
        rcases List.mem_cons.1 h2 with h2 | h2
        · exact hng _ h2
        · exact hne (hp e h2)
    have hlast := i3 t ht
    constructor
    · intro t' h1; rw [hst] at h1; cases h1; exact i1 t ht
    · intro t' h1 x hx; rw [hst] at h1; cases h1; rw [hn]; exact i2 t ht x hx
    · intro t' h1; rw [hst] at h1; cases h1; rw [hn]; exact hlast
    · intro t' h1 grp' l' hl'
      rw [hst] at h1; cases h1
      rw [hn]
      dsimp only at hl'
      rw [lastOf_append hl] at hl'
      split at hl'
      · cases hl'; omega
      · exact i4 t ht grp' l' hl'
    · intro t' h1 x hx; rw [hst] at h1; cases h1; exact i5 t ht x hx
    · intro n e b hm; rw [hn]; exact i6 n e b (nm _ (by simp [Plain]) (by simp) hm)
    · intro h1 h2 n e b hh n' e' b' hm
      rcases split_app hh with ⟨r, h3, _⟩ | ⟨p, h3, h4⟩
      · exact i7 h1 r n e b h3 n' e' b' hm
      · obtain ⟨_, h5, _⟩ := split_head hp h4 (by simp [Plain]); cases h5
    · intro grp' n e b hm
      obtain ⟨h3, h4⟩ := i8 grp' n e b (nm _ (by simp [Plain]) (by simp) hm)
      refine ⟨by rw [hn]; exact h3, fun t' h1 x hx => ?_⟩
      rw [hst] at h1; cases h1
      dsimp only at hx ⊢
      rcases h4 t ht x hx with h5 | ⟨l', h5, h6⟩
      · exact .inl h5
      · refine .inr ⟨l', ?_, h6⟩
        rw [lastOf_append hl, if_neg]
        · exact h5
        · rintro rfl; rw [hl] at h5; cases h5
    · intro h1 h2 grp n e b hh n' e' b' hm
      rcases split_app hh with ⟨r, h3, _⟩ | ⟨p, h3, h4⟩
      · exact i9 h1 r grp n e b h3 n' e' b' hm
      · obtain ⟨_, h5, _⟩ := split_head hp h4 (by simp [Plain]); cases h5
    · intro h1 h2 grp' hh hg
      rcases split_app hh with ⟨r, h3, rfl⟩ | ⟨p, h3, h4⟩
      · obtain ⟨t2, l', ha, hb, hd⟩ := i10 h1 r grp' h3 fun e he => hg e (List.mem_append_left _ he)
        rw [ht] at ha; cases ha
        refine ⟨_, l', hst, ?_, fun x hx hne hm => ?_⟩
        · dsimp only
          rw [lastOf_append hl, if_neg]
          · exact hb
          · rintro rfl; rw [hl] at hb; cases hb
        · have hm : Ev.added x.2 ∈ r := (List.mem_append.1 hm).resolve_right fun h2 => by
            rcases List.mem_cons.1 h2 with h2 | h2
            · cases h2
            · exact absurd (hp _ h2) (by simp [Plain])
          rcases hd x hx hne hm with h7 | h7
          · exact .inl h7
          · exact .inr (List.mem_append_left _ h7)
      · obtain ⟨_, h5, rfl⟩ := split_head hp h4 (by simp [Plain])
        cases h5
        refine ⟨_, l, hst, by dsimp only; rw [lastOf_append hl, if_pos rfl], fun x hx hne hm => ?_⟩
        exact absurd (hp _ hm) (by simp [Plain])
    · rw [hn]; exact i11
  | read t grp l x he ht hl hf hst hn =>
    subst he
    have hx0 := List.mem_of_find?_eq_some hf
    have hxl : l < x.1 := by simpa using List.find?_some hf
    have hmin : ∀ y ∈ t.entries, l < y.1 → x.1 ≤ y.1 := by
      intro y hy hly
      obtain ⟨_, as, bs, hsplit, hnone⟩ := List.find?_eq_some_iff_append.1 hf
      have hs := i1 t ht
      rw [hsplit] at hy hs
      rcases List.mem_append.1 hy with hy | hy
      · have := hnone y hy; simp at this; omega
      · rcases List.mem_cons.1 hy with hy | hy
        · rw [hy]; exact Nat.le_refl _
        · have := (List.pairwise_cons.1 (List.pairwise_append.1 hs).2.1).1 y hy
          omega
    have nm : ∀ e, (∀ g c, e ≠ .got g c) → e ∈ h ++ [Ev.got grp x.2] → e ∈ h := fun e hng hm =>
      (List.mem_append.1 hm).resolve_right fun h2 => hng _ _ (List.mem_singleton.1 h2)
    have hgot : ∀ g c, Ev.got g c ∈ h ++ [Ev.got grp x.2] → Ev.got g c ∈ h ∨ (g = grp ∧ c = x.2) := by
      intro g c hm
      rcases List.mem_append.1 hm with hm | hm
      · exact .inl hm
      · simp at hm; exact .inr hm
    constructor
    · intro t' h1; rw [hst] at h1; cases h1; exact i1 t ht
    · intro t' h1 y hy; rw [hst] at h1; cases h1; rw [hn]; exact i2 t ht y hy
    · intro t' h1; rw [hst] at h1; cases h1; rw [hn]; exact i3 t ht
    · intro t' h1 grp' l' hl'
      rw [hst] at h1; cases h1
      rw [hn]
      dsimp only at hl'
      rw [lastOf_advance] at hl'
      split at hl'
      · rename_i e; subst e; rw [hl] at hl'; cases hl'; exact i2 t ht x hx0
      · exact i4 t ht grp' l' hl'
    · intro t' h1 y hy; rw [hst] at h1; cases h1; exact i5 t ht y hy
    · intro n e b hm; rw [hn]; exact i6 n e b (nm _ (by simp) hm)
    · intro h1 h2 n e b hh n' e' b' hm
      rcases split_app hh with ⟨r, h3, _⟩ | ⟨p, h3, h4⟩
      · exact i7 h1 r n e b h3 n' e' b' hm
      · rcases p with _ | ⟨_, _ | _⟩ <;> simp at h4
    · intro grp' n e b hm
      rw [hn]
      rcases hgot _ _ hm with hm | ⟨rfl, hc⟩
      · obtain ⟨h3, h4⟩ := i8 grp' n e b hm
        refine ⟨h3, fun t' h1 y hy => ?_⟩
        rw [hst] at h1; cases h1
        dsimp only at hy ⊢
        rcases h4 t ht y hy with h5 | ⟨l', h5, h6⟩
        · exact .inl h5
        · right
          rw [lastOf_advance]
          split
          · rename_i e; subst e; rw [hl] at h5; cases h5
            rw [hl]; exact ⟨x.1, rfl, by omega⟩
          · exact ⟨l', h5, h6⟩
      · have h5 := i5 t ht x hx0 n e b hc.symm
        refine ⟨by rw [h5]; exact i2 t ht x hx0, fun t' h1 y hy => ?_⟩
        rw [hst] at h1; cases h1
        right
        dsimp only
        rw [lastOf_advance, if_pos rfl, hl]
        exact ⟨x.1, rfl, by omega⟩
    · intro h1 h2 grp' n e b hh n' e' b' hm
      rcases split_app hh with ⟨r, h3, _⟩ | ⟨p, h3, h4⟩
      · exact i9 h1 r grp' n e b h3 n' e' b' hm
      · have hp : p = [] ∧ Ev.got grp' (.msg n e b) = .got grp x.2 := by
          rcases p with _ | ⟨_, _ | _⟩ <;> simp at h4
          exact ⟨rfl, by rw [h4.1.1, h4.1.2]⟩
        obtain ⟨rfl, h5⟩ := hp
        rw [List.append_nil] at h3; subst h3
        simp only [Ev.got.injEq] at h5
        obtain ⟨rfl, h5⟩ := h5
        have h6 := i5 t ht x hx0 n e b h5.symm
        rcases (i8 grp' n' e' b' hm).2 t ht x hx0 with h7 | ⟨l', h7, h8⟩
        · omega
        · rw [hl] at h7; cases h7; omega
    · intro h1 h2 grp' hh hg
      rcases split_app hh with ⟨r, h3, rfl⟩ | ⟨p, h3, h4⟩
      · obtain ⟨t2, l', ha, hb, hd⟩ := i10 h1 r grp' h3 fun e he => hg e (List.mem_append_left _ he)
        rw [ht] at ha; cases ha
        by_cases e : grp' = grp
        · subst e
          rw [hl] at hb; cases hb
          refine ⟨_, x.1, hst, by dsimp only; rw [lastOf_advance, if_pos rfl, hl]; rfl, fun y hy hne hm => ?_⟩
          have hm : Ev.added y.2 ∈ r := (List.mem_append.1 hm).resolve_right fun h2 => by simp at h2
          rcases hd y hy hne hm with h7 | h7
          · have h8 := hmin y hy h7
            by_cases e : x.1 = y.1
            · right
              have : y = x := by
                have hs := i1 t ht
                apply Decidable.byContradiction
                intro hne
                rcases List.mem_iff_getElem.1 hy with ⟨j, hj, hjy⟩
                rcases List.mem_iff_getElem.1 hx0 with ⟨k, hk, hkx⟩
                rcases Nat.lt_trichotomy j k with h9 | h9 | h9
                · have := List.pairwise_iff_getElem.1 hs j k hj hk h9; rw [hjy, hkx] at this; omega
                · subst h9; rw [hjy] at hkx; exact hne hkx
                · have := List.pairwise_iff_getElem.1 hs k j hk hj h9; rw [hjy, hkx] at this; omega
              rw [this]; simp
            · left; omega
          · exact .inr (List.mem_append_left _ h7)
        · refine ⟨_, l', hst, by dsimp only; rw [lastOf_advance, if_neg e]; exact hb, fun y hy hne hm => ?_⟩
          have hm : Ev.added y.2 ∈ r := (List.mem_append.1 hm).resolve_right fun h2 => by simp at h2
          rcases hd y hy hne hm with h7 | h7
          · exact .inl h7
          · exact .inr (List.mem_append_left _ h7)
      · rcases p with _ | ⟨_, _ | _⟩ <;> simp at h4
    · rw [hn]; exact i11

/-- What was received had been put into the stream. -/
theorem got_added {h : List Ev} {s : State} (hr : sys.Run h s) {h1 h2 : List Ev} {grp : String} {c : Content}
    (he : h = h1 ++ .got grp c :: h2) : .added c ∈ h1 := by
  obtain ⟨h0, s0, a, s1, pre, post, as, rest, hr0, hs, rfl, -, -⟩ := hr.split_at he
  replace hs : step s0 a = some (s1, pre ++ .got grp c :: post) := hs
  have hr1 := rinv_run hr0
  cases kind hs with
  | less hn hp ht hk => exact (not_plain hp rfl (by simp [Plain])).elim
  | gone hn e0 r hev h3 hp ht =>
    obtain ⟨_, h5, _⟩ := split_head hp hev.symm (by simp [Plain])
    rw [← h5] at h3; exact h3.elim
  | add c' r hev hp hc hst hn => obtain ⟨_, h5, _⟩ := split_head hp hev.symm (by simp [Plain]); cases h5
  | group t g l r hev hp ht hl hle hst hn => obtain ⟨_, h5, _⟩ := split_head hp hev.symm (by simp [Plain]); cases h5
  | read t g l x hev ht hl hf hst hn =>
    rcases pre with _ | ⟨_, _ | _⟩ <;> simp at hev
    rw [hev.1.2]
    simpa using hr1.added t ht x (List.mem_of_find?_eq_some hf)

/-- Reading on reaches every entry that is due. -/
theorem reads (k : Nat) : ∀ (s : State) (t : Stream) (l : Nat) {grp : String}, s.stream = some t → lastOf t.groups grp = some l →
    t.entries.Pairwise (·.1 < ·.1) → ∀ x ∈ t.entries, l < x.1 → t.entries.countP (l < ·.1) ≤ k →
    ∃ j s' evs, sys.exec s (List.replicate j (.read grp)) = some (s', evs) ∧ .got grp x.2 ∈ evs := by
  induction k with
  | zero =>
    intro s t l grp ht hl hs x hx hlx hk
    have := List.countP_pos_iff (p := fun y : Nat × Content => decide (l < y.1)) |>.2 ⟨x, hx, by simpa using hlx⟩
    omega
  | succ k ih =>
    intro s t l grp ht hl hs x hx hlx hk
    cases hf : t.entries.find? (l < ·.1) with
    | none => have := List.find?_eq_none.1 hf x hx; simp at this; omega
    | some y =>
      have hy := List.mem_of_find?_eq_some hf
      have hly : l < y.1 := by simpa using List.find?_some hf
      let s1 : State := ⟨some { t with groups := advance t.groups grp y.1 }, s.next, (grp, y.1) :: s.seen, s.pc⟩
      have hst : step s (.read grp) = some (s1, [.got grp y.2]) := by
        simp only [step, ht, hl, hf]; rfl
      by_cases e : x = y
      · subst e
        exact ⟨1, _, _, by simp only [List.replicate, Lts.exec, sys, hst]; rfl, by simp⟩
      · have hmin : y.1 < x.1 := by
          obtain ⟨_, as, bs, hsplit, hnone⟩ := List.find?_eq_some_iff_append.1 hf
          rw [hsplit] at hx hs
          rcases List.mem_append.1 hx with hx | hx
          · have := hnone x hx; simp at this; omega
          · rcases List.mem_cons.1 hx with hx | hx
            · exact absurd hx e
            · exact (List.pairwise_cons.1 (List.pairwise_append.1 hs).2.1).1 x hx
        have hcnt : t.entries.countP (y.1 < ·.1) ≤ k := by
          have h1 : t.entries.countP (y.1 < ·.1) < t.entries.countP (l < ·.1) := by
            obtain ⟨_, as, bs, hsplit, hnone⟩ := List.find?_eq_some_iff_append.1 hf
            rw [hsplit, List.countP_append, List.countP_append, List.countP_cons, List.countP_cons]
            have h2 : as.countP (fun z => decide (y.1 < z.1)) ≤ as.countP (fun z => decide (l < z.1)) :=
              List.countP_mono_left (fun z _ hz => by simp at hz ⊢; omega)
            have h3 : bs.countP (fun z => decide (y.1 < z.1)) ≤ bs.countP (fun z => decide (l < z.1)) :=
              List.countP_mono_left (fun z _ hz => by simp at hz ⊢; omega)
            simp [hly]; omega
          omega
        obtain ⟨j, s', evs, h5, h6⟩ := ih s1 _ y.1 (grp := grp) rfl (by dsimp only; rw [lastOf_advance, if_pos rfl, hl]; rfl) hs x hx hmin hcnt
        exact ⟨j + 1, s', .got grp y.2 :: evs, Lts.exec_cons (M := sys) (show sys.step s (.read grp) = _ from hst) h5, by simp [h6]⟩

end Braid.TopicLife
