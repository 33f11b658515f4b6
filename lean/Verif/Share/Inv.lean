import Verif.Share.Spec

namespace Braid.Share

/-- Pointers lead to existing objects; requests are handed on by `Swap` only; a response is never a
request. -/
structure WF (h : List Ev) (s : State) : Prop where
  req_lt : ∀ w, w < s.nw → (s.wr w).req < s.nm
  res_lt : ∀ w, w < s.nw → (s.wr w).res < s.nm
  hp_lt : ∀ m, m < s.nm → ∀ p, (s.cell m).hp = some p → p < s.nh
  grp_lt : ∀ w, w < s.nw → (s.wr w).grp < s.ng
  mail_lt : ∀ a w, w ∈ s.mail a → w < s.nw
  pc_lt : ∀ g w a, s.pc g = .sending w a → w < s.nw
  org_lt : ∀ w, w < s.nw → origin h.reverse w < s.nw
  org_ge : ∀ w, s.nw ≤ w → origin h.reverse w = w
  req_org : ∀ w w', w < s.nw → w' < s.nw →
    ((s.wr w).req = (s.wr w').req ↔ origin h.reverse w = origin h.reverse w')
  res_req : ∀ w w', w < s.nw → w' < s.nw → (s.wr w).res ≠ (s.wr w').req
  link_lt : ∀ p, 0 < h.countP (linkOf p) → p < s.nh
  header_lt : ∀ p, Ev.header p ∈ h → p < s.nh

theorem origin_other {e : Ev} (he : ∀ v v', e ≠ .swapped v v') (h : List Ev) (w : Nat) :
    origin (e :: h) w = origin h w := by
  cases e <;> first | rfl | exact absurd rfl (he _ _)

theorem origin_concat_nil (h : List Ev) (w : Nat) : origin (h ++ []).reverse w = origin h.reverse w := by
  simp

theorem origin_concat {e : Ev} (he : ∀ v v', e ≠ .swapped v v') (h : List Ev) (w : Nat) :
    origin (h ++ [e]).reverse w = origin h.reverse w := by
  rw [List.reverse_append]; exact origin_other he _ _

theorem origin_swapped (h : List Ev) (v v' w : Nat) :
    origin (h ++ [Ev.swapped v v']).reverse w = origin h.reverse (if w = v' then v else w) := by
  rw [List.reverse_append]; rfl

theorem wf_init : WF [] sys.init := by
  constructor <;> simp [sys, init, origin]

/-- A step that leaves the wrappers, their number and the messages' header pointers as they were, or
moves header pointers within the allocated ones. -/
theorem wf_plain {h : List Ev} {s s' : State} {evs : List Ev} (hw : WF h s)
    (hwr : s'.wr = s.wr) (hnw : s'.nw = s.nw) (hnm : s'.nm = s.nm) (hnh : s.nh ≤ s'.nh)
    (hng : s'.ng = s.ng)
    (hhp : ∀ m, m < s.nm → ∀ p, (s'.cell m).hp = some p → p < s'.nh)
    (hmail : ∀ a w, w ∈ s'.mail a → w < s.nw)
    (hpc : ∀ g w a, s'.pc g = .sending w a → w < s.nw)
    (horg : ∀ w, origin (h ++ evs).reverse w = origin h.reverse w)
    (hlink : ∀ p, 0 < evs.countP (linkOf p) → p < s'.nh)
    (hheader : ∀ p, Ev.header p ∈ evs → p < s'.nh) : WF (h ++ evs) s' := by
  constructor
  · intro w hlt; rw [hwr, hnm]; exact hw.req_lt w (hnw ▸ hlt)
  · intro w hlt; rw [hwr, hnm]; exact hw.res_lt w (hnw ▸ hlt)
  · intro m hm; exact hhp m (hnm ▸ hm)
  · intro w hlt; rw [hwr, hng]; exact hw.grp_lt w (hnw ▸ hlt)
  · intro a w hm; rw [hnw]; exact hmail a w hm
  · intro g w a hm; rw [hnw]; exact hpc g w a hm
  · intro w hlt; rw [horg, hnw]; exact hw.org_lt w (hnw ▸ hlt)
  · intro w hlt; rw [horg]; exact hw.org_ge w (hnw ▸ hlt)
  · intro w w' h1 h2; rw [horg, horg, hwr]; exact hw.req_org w w' (hnw ▸ h1) (hnw ▸ h2)
  · intro w w' h1 h2; rw [hwr]; exact hw.res_req w w' (hnw ▸ h1) (hnw ▸ h2)
  · intro p hp
    rw [List.countP_append] at hp
    rcases Nat.eq_zero_or_pos (h.countP (linkOf p)) with h0 | h0
    · exact hlink p (by omega)
    · exact Nat.lt_of_lt_of_le (hw.link_lt p h0) hnh
  · intro p hp
    rcases List.mem_append.1 hp with hp | hp
    · exact Nat.lt_of_lt_of_le (hw.header_lt p hp) hnh
    · exact hheader p hp

theorem wf_link_le {h : List Ev} {s s' : State} {evs : List Ev} (hw : WF h s) (hnh : s.nh ≤ s'.nh)
    (hev : ∀ p, evs.countP (linkOf p) = 0) : ∀ p, 0 < (h ++ evs).countP (linkOf p) → p < s'.nh := by
  intro p hp
  rw [List.countP_append, hev, Nat.add_zero] at hp
  exact Nat.lt_of_lt_of_le (hw.link_lt p hp) hnh

theorem wf_header_le {h : List Ev} {s s' : State} {evs : List Ev} (hw : WF h s) (hnh : s.nh ≤ s'.nh)
    (hev : ∀ p, Ev.header p ∉ evs) : ∀ p, Ev.header p ∈ h ++ evs → p < s'.nh := by
  intro p hp
  rcases List.mem_append.1 hp with hp | hp
  · exact Nat.lt_of_lt_of_le (hw.header_lt p hp) hnh
  · exact absurd hp (hev p)

theorem wf_new {h : List Ev} {s : State} (hw : WF h s) (ctx : Option Nat) (uid : String)
    (hc : ∀ c, ctx = some c → c < s.ng) : WF (h ++ [Ev.made s.nw]) (newWrapper s ctx uid) := by
  have ho : ∀ w, origin (h ++ [Ev.made s.nw]).reverse w = origin h.reverse w :=
    origin_concat (by intros; simp) h
  constructor
  · intro w hlt
    simp only [newWrapper, upd_apply] at hlt ⊢
    split
    · simp
    · have := hw.req_lt w (by omega); omega
  · intro w hlt
    simp only [newWrapper, upd_apply] at hlt ⊢
    split
    · simp
    · have := hw.res_lt w (by omega); omega
  · intro m hm p hp
    simp only [newWrapper, upd_apply] at hm hp ⊢
    split at hp
    · simp only [Option.some.injEq] at hp; omega
    · split at hp
      · simp only [Option.some.injEq] at hp; omega
      · have := hw.hp_lt m (by omega) p hp; omega
  · intro w hlt
    simp only [newWrapper, upd_apply] at hlt ⊢
    cases ctx with
    | none =>
      simp only [Option.getD_none, Option.isSome_none, Bool.false_eq_true, if_false]
      split
      · simp
      · have := hw.grp_lt w (by omega); omega
    | some c =>
      simp only [Option.getD_some, Option.isSome_some, if_true]
      split
      · exact hc c rfl
      · exact hw.grp_lt w (by omega)
  · intro a w hm; have := hw.mail_lt a w hm; simp only [newWrapper]; omega
  · intro g w a hm; have := hw.pc_lt g w a hm; simp only [newWrapper]; omega
  · intro w hlt
    rw [ho]
    simp only [newWrapper] at hlt ⊢
    rcases Nat.lt_or_ge w s.nw with h1 | h1
    · have := hw.org_lt w h1; omega
    · rw [hw.org_ge w h1]; exact hlt
  · intro w hlt
    rw [ho]; simp only [newWrapper] at hlt; exact hw.org_ge w (by omega)
  · intro w w' h1 h2
    rw [ho, ho]
    simp only [newWrapper, upd_apply] at h1 h2 ⊢
    by_cases e1 : w = s.nw <;> by_cases e2 : w' = s.nw
    · simp [e1, e2]
    · have a1 := hw.req_lt w' (by omega)
      have a2 := hw.org_lt w' (by omega)
      rw [if_pos e1, if_neg e2, hw.org_ge w (by omega)]
      constructor <;> intro hh <;> (try simp only at hh) <;> omega
    · have a1 := hw.req_lt w (by omega)
      have a2 := hw.org_lt w (by omega)
      rw [if_neg e1, if_pos e2, hw.org_ge w' (by omega)]
      constructor <;> intro hh <;> (try simp only at hh) <;> omega
    · rw [if_neg e1, if_neg e2]; exact hw.req_org w w' (by omega) (by omega)
  · intro w w' h1 h2
    simp only [newWrapper, upd_apply] at h1 h2 ⊢
    by_cases e1 : w = s.nw <;> by_cases e2 : w' = s.nw
    · simp [e1, e2]
    · have a1 := hw.req_lt w' (by omega)
      rw [if_pos e1, if_neg e2]; simp only; omega
    · have a1 := hw.res_lt w (by omega)
      rw [if_neg e1, if_pos e2]; simp only; omega
    · rw [if_neg e1, if_neg e2]; exact hw.res_req w w' (by omega) (by omega)
  · exact wf_link_le hw (by simp [newWrapper]) (by intro p; simp [linkOf])
  · exact wf_header_le hw (by simp [newWrapper]) (by intro p; simp)

theorem wf_swap {h : List Ev} {s : State} (hw : WF h s) {v : Nat} (hv : v < s.nw) :
    WF (h ++ [Ev.swapped v s.nw]) (swapWrapper s v) := by
  have ho : ∀ w, origin (h ++ [Ev.swapped v s.nw]).reverse w
      = origin h.reverse (if w = s.nw then v else w) := origin_swapped h v s.nw
  have hr : ∀ w, w < s.nw + 1 → (if w = s.nw then v else w) < s.nw := by
    intro w hlt; split <;> omega
  have hq : ∀ w, ((swapWrapper s v).wr w).req = (s.wr (if w = s.nw then v else w)).req := by
    intro w; simp only [swapWrapper, upd_apply]; split <;> rfl
  have hs : ∀ w, ((swapWrapper s v).wr w).res = (s.wr (if w = s.nw then v else w)).res := by
    intro w; simp only [swapWrapper, upd_apply]; split <;> rfl
  constructor
  · intro w hlt; rw [hq]; exact hw.req_lt _ (hr w hlt)
  · intro w hlt; rw [hs]; exact hw.res_lt _ (hr w hlt)
  · exact hw.hp_lt
  · intro w hlt
    simp only [swapWrapper, upd_apply] at hlt ⊢
    split
    · simp
    · have := hw.grp_lt w (by omega); omega
  · intro a w hm; have := hw.mail_lt a w hm; simp only [swapWrapper]; omega
  · intro g w a hm; have := hw.pc_lt g w a hm; simp only [swapWrapper]; omega
  · intro w hlt
    rw [ho]; have := hw.org_lt _ (hr w hlt); simp only [swapWrapper]; omega
  · intro w hlt
    simp only [swapWrapper] at hlt
    rw [ho, if_neg (by omega)]; exact hw.org_ge w (by omega)
  · intro w w' h1 h2
    rw [ho, ho, hq, hq]; exact hw.req_org _ _ (hr w h1) (hr w' h2)
  · intro w w' h1 h2
    rw [hq, hs]; exact hw.res_req _ _ (hr w h1) (hr w' h2)
  · exact wf_link_le hw (by simp [swapWrapper]) (by intro p; simp [linkOf])
  · exact wf_header_le hw (by simp [swapWrapper]) (by intro p; simp)

/-- A step that moves one response pointer to a message that is no request. -/
theorem wf_res {h : List Ev} {s s' : State} {e : Ev} (hw : WF h s) {v r : Nat}
    (hwr : s'.wr = upd s.wr v { s.wr v with res := r }) (hnw : s'.nw = s.nw) (hnm : s.nm ≤ s'.nm)
    (hng : s'.ng = s.ng) (hnh : s.nh ≤ s'.nh) (hmail : s'.mail = s.mail) (hpc : s'.pc = s.pc)
    (hr : r < s'.nm) (hrr : ∀ w, w < s.nw → r ≠ (s.wr w).req)
    (hhp : ∀ m, m < s'.nm → ∀ p, (s'.cell m).hp = some p → p < s'.nh)
    (hsw : ∀ v v', e ≠ .swapped v v') (hl : ∀ p, linkOf p e = false) (hh : ∀ p, e ≠ .header p) :
    WF (h ++ [e]) s' := by
  have ho : ∀ w, origin (h ++ [e]).reverse w = origin h.reverse w := origin_concat hsw h
  have hq : ∀ w, (s'.wr w).req = (s.wr w).req := by
    intro w; rw [hwr, upd_apply]; split
    · rename_i hh; rw [hh]
    · rfl
  have hg : ∀ w, (s'.wr w).grp = (s.wr w).grp := by
    intro w; rw [hwr, upd_apply]; split
    · rename_i hh; rw [hh]
    · rfl
  have hs : ∀ w, (s'.wr w).res = r ∨ (s'.wr w).res = (s.wr w).res := by
    intro w; rw [hwr, upd_apply]; split
    · exact Or.inl rfl
    · exact Or.inr rfl
  constructor
  · intro w hlt; rw [hq]; exact Nat.lt_of_lt_of_le (hw.req_lt w (hnw ▸ hlt)) hnm
  · intro w hlt
    rcases hs w with h1 | h1 <;> rw [h1]
    · exact hr
    · exact Nat.lt_of_lt_of_le (hw.res_lt w (hnw ▸ hlt)) hnm
  · exact hhp
  · intro w hlt; rw [hg, hng]; exact hw.grp_lt w (hnw ▸ hlt)
  · intro a w hm; rw [hnw]; exact hw.mail_lt a w (hmail ▸ hm)
  · intro g w a hm; rw [hnw]; exact hw.pc_lt g w a (hpc ▸ hm)
  · intro w hlt; rw [ho, hnw]; exact hw.org_lt w (hnw ▸ hlt)
  · intro w hlt; rw [ho]; exact hw.org_ge w (hnw ▸ hlt)
  · intro w w' h1 h2; rw [ho, ho, hq, hq]; exact hw.req_org w w' (hnw ▸ h1) (hnw ▸ h2)
  · intro w w' h1 h2
    rw [hq]
    rcases hs w with h3 | h3 <;> rw [h3]
    · exact hrr w' (hnw ▸ h2)
    · exact hw.res_req w w' (hnw ▸ h1) (hnw ▸ h2)
  · exact wf_link_le hw hnh (by intro p; simp [hl p])
  · exact wf_header_le hw hnh (by intro p hp; exact hh p (List.mem_singleton.1 hp).symm)

/-- What `reqHeader` does. -/
theorem reqHeader_cases (s : State) (w : Nat) (p : Option Nat) :
    (∃ q r, (s.cell (s.wr w).req).hp = some q ∧ p = some r ∧
      reqHeader s w p
        = ({ s with hdr := upd s.hdr q (copyFrom (s.hdr q) (s.hdr r)) }, [.copied w (s.hdr r)])) ∨
    ((s.cell (s.wr w).req).hp = none ∧ ∃ r, p = some r ∧
      reqHeader s w p
        = ({ s with cell := upd s.cell (s.wr w).req { s.cell (s.wr w).req with hp := some r } },
            [.linked w r])) ∨
    (p = none ∧ reqHeader s w p
        = ({ s with cell := upd s.cell (s.wr w).req { s.cell (s.wr w).req with hp := none } },
            [.cleared w])) := by
  cases hq : (s.cell (s.wr w).req).hp with
  | none =>
    cases p with
    | none => exact Or.inr (Or.inr ⟨rfl, by simp [reqHeader, hq]⟩)
    | some r => exact Or.inr (Or.inl ⟨rfl, r, rfl, by simp [reqHeader, hq]⟩)
  | some q =>
    cases p with
    | none => exact Or.inr (Or.inr ⟨rfl, by simp [reqHeader, hq]⟩)
    | some r => exact Or.inl ⟨q, r, rfl, rfl, by simp [reqHeader, hq]⟩

theorem setCustom_cases (s : State) (m : Nat) (b : Bytes) :
    (∃ p, (s.cell m).hp = some p ∧
      setCustom s m b = ({ s with hdr := upd s.hdr p { s.hdr p with custom := b } }, [])) ∨
    ((s.cell m).hp = none ∧ setCustom s m b = (s, [.panicked])) := by
  cases hq : (s.cell m).hp with
  | none => exact Or.inr ⟨rfl, by simp [setCustom, hq]⟩
  | some p => exact Or.inl ⟨p, rfl, by simp [setCustom, hq]⟩

theorem stamp_cases (s : State) (g w : Nat) (a ty ev : String) :
    (∃ p, (s.cell (s.wr w).req).hp = some p ∧
      stamp s g w a ty ev = ({ s with
        hdr := upd s.hdr p { s.hdr p with event := ev, targetActorID := a, targetActorType := ty }
        pc := upd s.pc g (.sending w a) }, [.stamped g w a ev])) ∨
    ((s.cell (s.wr w).req).hp = none ∧ stamp s g w a ty ev = (s, [.panicked])) := by
  cases hq : (s.cell (s.wr w).req).hp with
  | none => exact Or.inr ⟨rfl, by simp [stamp, hq]⟩
  | some p => exact Or.inl ⟨p, rfl, by simp [stamp, hq]⟩

theorem wf_step {h : List Ev} {s : State} {a : Act} {s' : State} {evs : List Ev} (hw : WF h s)
    (hs : sys.step s a = some (s', evs)) : WF (h ++ evs) s' := by
  have hhp : ∀ m q, m < s.nm → (∀ p, q = some p → p < s.nh) → ∀ b : Bytes,
      ∀ m', m' < s.nm → ∀ p, (upd s.cell m ⟨q, b⟩ m').hp = some p → p < s.nh := by
    intro m q _ hq b m' hm' p hp
    rw [upd_apply] at hp
    split at hp
    · exact hq p hp
    · exact hw.hp_lt m' hm' p hp
  have hnil : ∀ w, origin (h ++ []).reverse w = origin h.reverse w := origin_concat_nil h
  have hc : ∀ e : Ev, (∀ v v', e ≠ .swapped v v') →
    ∀ w, origin (h ++ [e]).reverse w = origin h.reverse w := fun e he => origin_concat he h
  cases a with
  | new ctx uid =>
    simp only [sys, step] at hs
    split at hs
    · rename_i hcx; cases hs; exact wf_new hw ctx uid hcx
    · cases hs
  | swap w =>
    simp only [sys, step] at hs
    split at hs
    · rename_i hv; cases hs; exact wf_swap hw hv
    · cases hs
  | header hd =>
    simp only [sys, step] at hs
    cases hs
    exact wf_plain hw rfl rfl rfl (by simp) rfl
      (fun m hm p hp => Nat.lt_succ_of_lt (hw.hp_lt m hm p hp)) hw.mail_lt hw.pc_lt
      (hc _ (by simp)) (by simp [linkOf]) (by simp)
  | reqHeader w p =>
    simp only [sys, step] at hs
    split at hs
    · rename_i hg
      obtain ⟨hlt, hp⟩ := hg
      rcases reqHeader_cases s w p with ⟨q, r, _, rfl, he⟩ | ⟨_, r, rfl, he⟩ | ⟨rfl, he⟩ <;>
        rw [he] at hs <;> cases hs
      · exact wf_plain hw rfl rfl rfl (Nat.le_refl _) rfl hw.hp_lt hw.mail_lt hw.pc_lt
          (hc _ (by simp)) (by simp [linkOf]) (by simp)
      · exact wf_plain hw rfl rfl rfl (Nat.le_refl _) rfl
          (hhp _ _ (hw.req_lt w hlt) hp _) hw.mail_lt hw.pc_lt (hc _ (by simp))
          (by intro p' hp'
              simp only [List.countP_cons, List.countP_nil, linkOf] at hp'
              by_cases e : r = p'
              · subst e; exact hp r rfl
              · simp [e] at hp')
          (by simp)
      · exact wf_plain hw rfl rfl rfl (Nat.le_refl _) rfl
          (hhp _ _ (hw.req_lt w hlt) (by simp) _) hw.mail_lt hw.pc_lt (hc _ (by simp))
          (by simp [linkOf]) (by simp)
    · cases hs
  | resHeader w p =>
    simp only [sys, step] at hs
    split at hs
    · rename_i hg
      obtain ⟨hlt, hp⟩ := hg
      cases hs
      exact wf_plain hw rfl rfl rfl (Nat.le_refl _) rfl
          (hhp _ _ (hw.res_lt w hlt) hp _) hw.mail_lt hw.pc_lt (hc _ (by simp))
          (by intro p' hp'
              cases p with
              | none => simp [linkOf] at hp'
              | some r =>
                simp only [List.countP_cons, List.countP_nil, linkOf] at hp'
                by_cases e : r = p'
                · subst e; exact hp r rfl
                · simp [e] at hp')
          (by simp)
    · cases hs
  | reqBody w b =>
    simp only [sys, step] at hs
    split at hs
    · rename_i hlt; cases hs
      exact wf_plain hw rfl rfl rfl (Nat.le_refl _) rfl
        (hhp _ _ (hw.req_lt w hlt) (hw.hp_lt _ (hw.req_lt w hlt)) _) hw.mail_lt hw.pc_lt hnil
        (by simp) (by simp)
    · cases hs
  | resBody w b =>
    simp only [sys, step] at hs
    split at hs
    · rename_i hlt; cases hs
      exact wf_plain hw rfl rfl rfl (Nat.le_refl _) rfl
        (hhp _ _ (hw.res_lt w hlt) (hw.hp_lt _ (hw.res_lt w hlt)) _) hw.mail_lt hw.pc_lt hnil
        (by simp) (by simp)
    · cases hs
  | reqCustom w b =>
    simp only [sys, step] at hs
    split at hs
    · rcases setCustom_cases s (s.wr w).req b with ⟨q, _, he⟩ | ⟨_, he⟩ <;> rw [he] at hs <;> cases hs
      · exact wf_plain hw rfl rfl rfl (Nat.le_refl _) rfl hw.hp_lt hw.mail_lt hw.pc_lt hnil
          (by simp) (by simp)
      · exact wf_plain hw rfl rfl rfl (Nat.le_refl _) rfl hw.hp_lt hw.mail_lt hw.pc_lt
          (hc _ (by simp)) (by simp [linkOf]) (by simp)
    · cases hs
  | resCustom w b =>
    simp only [sys, step] at hs
    split at hs
    · rcases setCustom_cases s (s.wr w).res b with ⟨q, _, he⟩ | ⟨_, he⟩ <;> rw [he] at hs <;> cases hs
      · exact wf_plain hw rfl rfl rfl (Nat.le_refl _) rfl hw.hp_lt hw.mail_lt hw.pc_lt hnil
          (by simp) (by simp)
      · exact wf_plain hw rfl rfl rfl (Nat.le_refl _) rfl hw.hp_lt hw.mail_lt hw.pc_lt
          (hc _ (by simp)) (by simp [linkOf]) (by simp)
    · cases hs
  | stamp g w a ty ev =>
    simp only [sys, step] at hs
    split at hs
    · split at hs
      · rename_i hlt
        rcases stamp_cases s g w a ty ev with ⟨q, _, he⟩ | ⟨_, he⟩ <;> rw [he] at hs <;> cases hs
        · refine wf_plain hw rfl rfl rfl (Nat.le_refl _) rfl hw.hp_lt hw.mail_lt ?_
            (hc _ (by simp)) (by simp [linkOf]) (by simp)
          intro g' w' a' hg
          simp only [upd_apply] at hg
          split at hg
          · cases hg; exact hlt
          · exact hw.pc_lt g' w' a' hg
        · exact wf_plain hw rfl rfl rfl (Nat.le_refl _) rfl hw.hp_lt hw.mail_lt hw.pc_lt
            (hc _ (by simp)) (by simp [linkOf]) (by simp)
      · cases hs
    · cases hs
  | push g =>
    simp only [sys, step] at hs
    split at hs
    · rename_i w a hpc
      cases hs
      refine wf_plain hw rfl rfl rfl (Nat.le_refl _) rfl hw.hp_lt ?_ ?_
        (hc _ (by simp)) (by simp [linkOf]) (by simp)
      · intro a' w' hm
        simp only [upd_apply] at hm
        split at hm
        · rcases List.mem_append.1 hm with hm | hm
          · exact hw.mail_lt a w' hm
          · simp only [List.mem_singleton] at hm; subst hm; exact hw.pc_lt g w' a hpc
        · exact hw.mail_lt a' w' hm
      · intro g' w' a' hg
        simp only [upd_apply] at hg
        split at hg
        · cases hg
        · exact hw.pc_lt g' w' a' hg
    · cases hs
  | drop g =>
    simp only [sys, step] at hs
    split at hs
    · rename_i w a hpc
      cases hs
      refine wf_plain hw rfl rfl rfl (Nat.le_refl _) rfl hw.hp_lt hw.mail_lt ?_
        (hc _ (by simp)) (by simp [linkOf]) (by simp)
      intro g' w' a' hg
      simp only [upd_apply] at hg
      split at hg
      · cases hg
      · exact hw.pc_lt g' w' a' hg
    · cases hs
  | handle a =>
    simp only [sys, step] at hs
    split at hs
    · rename_i w rest hm
      cases hs
      refine wf_plain hw rfl rfl rfl (Nat.le_refl _) rfl hw.hp_lt ?_ hw.pc_lt
        (hc _ (by simp)) (by simp [linkOf]) (by simp)
      intro a' w' hm'
      simp only [upd_apply] at hm'
      split at hm'
      · exact hw.mail_lt a w' (by rw [hm]; exact List.mem_cons_of_mem _ hm')
      · exact hw.mail_lt a' w' hm'
    · cases hs
  | reply w hd b =>
    simp only [sys, step] at hs
    split at hs
    · cases hs
      cases hd with
      | none =>
        refine wf_res (v := w) (r := s.nm) hw rfl rfl (by simp [reply]) rfl (by simp [reply]) rfl rfl
          (by simp [reply]) (fun w' h' => by have := hw.req_lt w' h'; omega) ?_ (by simp)
          (by simp [linkOf]) (by simp)
        intro m hm p hp
        simp only [reply, upd_apply] at hm hp ⊢
        split at hp
        · cases hp
        · exact hw.hp_lt m (by omega) p hp
      | some hd =>
        refine wf_res (v := w) (r := s.nm) hw rfl rfl (by simp [reply]) rfl (by simp [reply]) rfl rfl
          (by simp [reply]) (fun w' h' => by have := hw.req_lt w' h'; omega) ?_ (by simp)
          (by simp [linkOf]) (by simp)
        intro m hm p hp
        simp only [reply, upd_apply] at hm hp ⊢
        split at hp
        · simp only [Option.some.injEq] at hp; omega
        · have := hw.hp_lt m (by omega) p hp; omega
    · cases hs
  | take w w' =>
    simp only [sys, step] at hs
    split at hs
    · rename_i hg
      cases hs
      exact wf_res (v := w) (r := (s.wr w').res) hw rfl rfl (Nat.le_refl _) rfl (Nat.le_refl _) rfl
        rfl (hw.res_lt w' hg.2) (fun v hv => hw.res_req w' v hg.2 hv) hw.hp_lt (by simp)
        (by simp [linkOf]) (by simp)
    · cases hs

theorem wf_run {h : List Ev} {s : State} (hr : sys.Run h s) : WF h s :=
  hr.invariant (P := WF) wf_init (fun _ _ _ _ _ _ hi hs => wf_step hi hs)

end Braid.Share
