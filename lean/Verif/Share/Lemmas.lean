import Verif.Share.Inv

namespace Braid.Share

/-- Distinct requests have distinct headers, and the event in a request header is the one written
last. -/
structure EvInv (h : List Ev) (s : State) : Prop where
  priv : ∀ w w' p, w < s.nw → w' < s.nw → (s.cell (s.wr w).req).hp = some p →
    (s.cell (s.wr w').req).hp = some p → (s.wr w).req = (s.wr w').req
  last : ∀ w, w < s.nw → eventOf s w = lastEvent (origin h.reverse w) h.reverse

theorem lastEvent_other {e : Ev} {h : List Ev} {r : Nat} (he : writes (origin h.reverse) r e = none) :
    lastEvent r (h ++ [e]).reverse = lastEvent r h.reverse := by
  rw [List.reverse_append]
  show (writes (origin h.reverse) r e).getD _ = _
  rw [he]; rfl

theorem lastEvent_write {e : Ev} {h : List Ev} {r : Nat} {x : Option String}
    (he : writes (origin h.reverse) r e = some x) : lastEvent r (h ++ [e]).reverse = x := by
  rw [List.reverse_append]
  show (writes (origin h.reverse) r e).getD _ = _
  rw [he]; rfl

theorem noLink_left {h evs : List Ev} (hn : NoLink (h ++ evs)) : NoLink h :=
  fun w p hm => hn w p (List.mem_append_left _ hm)

/-- A step that leaves wrappers and request headers as they were. -/
theorem ev_same {h : List Ev} {s s' : State} {evs : List Ev} (hi : EvInv h s) (hnw : s'.nw = s.nw)
    (hq : ∀ w, w < s.nw → (s'.wr w).req = (s.wr w).req)
    (hhp : ∀ w, w < s.nw → (s'.cell (s.wr w).req).hp = (s.cell (s.wr w).req).hp)
    (hev : ∀ w p, w < s.nw → (s.cell (s.wr w).req).hp = some p → (s'.hdr p).event = (s.hdr p).event)
    (ho : ∀ w, origin (h ++ evs).reverse w = origin h.reverse w)
    (hl : ∀ r, lastEvent r (h ++ evs).reverse = lastEvent r h.reverse) : EvInv (h ++ evs) s' := by
  constructor
  · intro w w' p h1 h2 h3 h4
    rw [hnw] at h1 h2
    rw [hq w h1, hhp w h1] at h3
    rw [hq w' h2, hhp w' h2] at h4
    rw [hq w h1, hq w' h2]
    exact hi.priv w w' p h1 h2 h3 h4
  · intro w h1
    rw [hnw] at h1
    rw [ho, hl, ← hi.last w h1]
    unfold eventOf
    rw [hq w h1, hhp w h1]
    cases hh : (s.cell (s.wr w).req).hp with
    | none => rfl
    | some p => simp [hev w p h1 hh]

/-- A step that writes the event of one request through its own header. -/
theorem ev_write {h : List Ev} {s s' : State} {e : Ev} (hw : WF h s) (hi : EvInv h s) {v q : Nat}
    (hv : v < s.nw) (hvq : (s.cell (s.wr v).req).hp = some q) (hnw : s'.nw = s.nw)
    (hwr : s'.wr = s.wr) (hcell : s'.cell = s.cell) (x : String)
    (hx : (s'.hdr q).event = x) (hother : ∀ p, p ≠ q → s'.hdr p = s.hdr p)
    (hsw : ∀ a b, e ≠ .swapped a b)
    (hwrites : ∀ r, writes (origin h.reverse) r e
      = if origin h.reverse v = r then some (some x) else none) : EvInv (h ++ [e]) s' := by
  have ho : ∀ w, origin (h ++ [e]).reverse w = origin h.reverse w := origin_concat hsw h
  constructor
  · intro w w' p h1 h2
    rw [hwr, hcell]
    exact hi.priv w w' p (hnw ▸ h1) (hnw ▸ h2)
  · intro w h1
    rw [hnw] at h1
    rw [ho]
    by_cases hc : origin h.reverse v = origin h.reverse w
    · have hreq := (hw.req_org v w hv h1).2 hc
      rw [lastEvent_write (x := some x) (by rw [hwrites, if_pos hc])]
      unfold eventOf
      rw [hwr, hcell, ← hreq, hvq]
      simp [hx]
    · rw [lastEvent_other (by rw [hwrites, if_neg hc]), ← hi.last w h1]
      unfold eventOf
      rw [hwr, hcell]
      cases hh : (s.cell (s.wr w).req).hp with
      | none => rfl
      | some p =>
        have hpq : p ≠ q := by
          intro hpq
          subst hpq
          exact hc ((hw.req_org v w hv h1).1 (hi.priv v w p hv h1 hvq hh))
        simp [hother p hpq]

theorem ev_step {h : List Ev} {s : State} {a : Act} {s' : State} {evs : List Ev} (hw : WF h s)
    (hi : EvInv h s) (hs : sys.step s a = some (s', evs)) (hn : NoLink (h ++ evs)) :
    EvInv (h ++ evs) s' := by
  have hnil : ∀ w, origin (h ++ []).reverse w = origin h.reverse w := origin_concat_nil h
  have hnil' : ∀ r, lastEvent r (h ++ []).reverse = lastEvent r h.reverse := by intro r; simp
  have hc : ∀ e : Ev, (∀ v v', e ≠ .swapped v v') →
    ∀ w, origin (h ++ [e]).reverse w = origin h.reverse w := fun e he => origin_concat he h
  have hl : ∀ e : Ev, (∀ r, writes (origin h.reverse) r e = none) →
    ∀ r, lastEvent r (h ++ [e]).reverse = lastEvent r h.reverse :=
      fun e he r => lastEvent_other (he r)
  cases a with
  | new ctx uid =>
    simp only [sys, step] at hs
    split at hs
    · cases hs
      have ho : ∀ w, origin (h ++ [Ev.made s.nw]).reverse w = origin h.reverse w := hc _ (by simp)
      have hq : ∀ w, w < s.nw → ((newWrapper s ctx uid).wr w).req = (s.wr w).req := by
        intro w h1; simp only [newWrapper, upd_apply]; rw [if_neg (by omega)]
      have hcl : ∀ w, w < s.nw →
          ((newWrapper s ctx uid).cell (s.wr w).req) = (s.cell (s.wr w).req) := by
        intro w h1
        have := hw.req_lt w h1
        simp only [newWrapper, upd_apply]
        rw [if_neg (by omega), if_neg (by omega)]
      have hnew : ((newWrapper s ctx uid).wr s.nw).req = s.nm := by simp [newWrapper]
      have hnewc : ((newWrapper s ctx uid).cell s.nm).hp = some s.nh := by
        simp [newWrapper, upd_apply]
      constructor
      · intro w w' p h1 h2 h3 h4
        have h1' : w < s.nw + 1 := h1
        have h2' : w' < s.nw + 1 := h2
        by_cases e1 : w = s.nw <;> by_cases e2 : w' = s.nw
        · rw [e1, e2]
        · have h5 : w' < s.nw := by omega
          subst e1
          rw [hnew, hnewc] at h3
          rw [hq w' h5, hcl w' h5] at h4
          have := hw.hp_lt _ (hw.req_lt w' h5) p h4
          simp only [Option.some.injEq] at h3; omega
        · have h5 : w < s.nw := by omega
          subst e2
          rw [hnew, hnewc] at h4
          rw [hq w h5, hcl w h5] at h3
          have := hw.hp_lt _ (hw.req_lt w h5) p h3
          simp only [Option.some.injEq] at h4; omega
        · have h5 : w < s.nw := by omega
          have h6 : w' < s.nw := by omega
          rw [hq w h5, hcl w h5] at h3
          rw [hq w' h6, hcl w' h6] at h4
          rw [hq w h5, hq w' h6]
          exact hi.priv w w' p h5 h6 h3 h4
      · intro w h1
        have h1' : w < s.nw + 1 := h1
        rw [ho]
        by_cases e1 : w = s.nw
        · subst e1
          rw [hw.org_ge _ (Nat.le_refl _), lastEvent_write (x := some "") (by simp [writes])]
          unfold eventOf
          rw [hnew, hnewc]
          simp [newWrapper, upd_apply, blank]
        · have h5 : w < s.nw := by omega
          have h6 := hw.org_lt w h5
          rw [lastEvent_other (by simp only [writes]; rw [if_neg (by omega)]), ← hi.last w h5]
          unfold eventOf
          rw [hq w h5, hcl w h5]
          cases hh : (s.cell (s.wr w).req).hp with
          | none => rfl
          | some p =>
            have := hw.hp_lt _ (hw.req_lt w h5) p hh
            simp only [Option.map_some, newWrapper, upd_apply]
            rw [if_neg (by omega), if_neg (by omega)]
    · cases hs
  | swap v =>
    simp only [sys, step] at hs
    split at hs
    · rename_i hv
      cases hs
      have hr : ∀ w, w < s.nw + 1 → (if w = s.nw then v else w) < s.nw := by
        intro w hlt; split <;> omega
      have hq : ∀ w, ((swapWrapper s v).wr w).req = (s.wr (if w = s.nw then v else w)).req := by
        intro w; simp only [swapWrapper, upd_apply]; split <;> rfl
      constructor
      · intro w w' p h1 h2 h3 h4
        rw [hq] at h3 h4
        rw [hq, hq]
        exact hi.priv _ _ p (hr w h1) (hr w' h2) h3 h4
      · intro w h1
        rw [origin_swapped, lastEvent_other rfl, ← hi.last _ (hr w h1)]
        unfold eventOf
        rw [hq]
        rfl
    · cases hs
  | header hd =>
    simp only [sys, step] at hs
    cases hs
    refine ev_same hi rfl (fun _ _ => rfl) (fun _ _ => rfl) ?_ (hc _ (by simp)) (hl _ (by simp [writes]))
    intro w p h1 h2
    have := hw.hp_lt _ (hw.req_lt w h1) p h2
    simp only [upd_apply]
    rw [if_neg (by omega)]
  | reqHeader w p =>
    simp only [sys, step] at hs
    split at hs
    · rename_i hg
      obtain ⟨hlt, hp⟩ := hg
      rcases reqHeader_cases s w p with ⟨q, r, hq, rfl, he⟩ | ⟨_, r, rfl, he⟩ | ⟨rfl, he⟩ <;>
        rw [he] at hs <;> cases hs
      · exact ev_write hw hi hlt hq rfl rfl rfl (s.hdr r).event (by simp [copyFrom])
          (fun p hp => by simp [upd_apply, hp]) (by simp) (fun r => by simp [writes])
      · exact absurd (List.mem_append_right _ (List.mem_singleton.2 rfl)) (hn w r)
      · have ho : ∀ v, origin (h ++ [Ev.cleared w]).reverse v = origin h.reverse v := hc _ (by simp)
        have hcell : ∀ m, (upd s.cell (s.wr w).req ⟨none, (s.cell (s.wr w).req).body⟩ m).hp
            = if m = (s.wr w).req then none else (s.cell m).hp := by
          intro m; rw [upd_apply]; split <;> rfl
        constructor
        · intro v v' p h1 h2 h3 h4
          rw [hcell] at h3 h4
          split at h3
          · cases h3
          · split at h4
            · cases h4
            · exact hi.priv v v' p h1 h2 h3 h4
        · intro v h1
          rw [ho]
          unfold eventOf
          rw [hcell]
          by_cases hcs : (s.wr v).req = (s.wr w).req
          · rw [if_pos hcs]
            rw [lastEvent_write (x := none)]
            · rfl
            · simp only [writes]
              rw [if_pos ((hw.req_org w v hlt h1).1 hcs.symm)]
          · rw [if_neg hcs]
            rw [lastEvent_other]
            · exact hi.last v h1
            · simp only [writes]
              rw [if_neg (fun hh => hcs ((hw.req_org w v hlt h1).2 hh).symm)]
    · cases hs
  | resHeader w p =>
    simp only [sys, step] at hs
    split at hs
    · rename_i hg
      obtain ⟨hlt, hp⟩ := hg
      cases hs
      refine ev_same hi rfl (fun _ _ => rfl) ?_ (fun _ _ _ _ => rfl) (hc _ (by simp))
        (hl _ (by simp [writes]))
      intro v hv
      simp only [resHeader, upd_apply]
      rw [if_neg (fun hh => hw.res_req w v hlt hv hh.symm)]
    · cases hs
  | reqBody w b =>
    simp only [sys, step] at hs
    split at hs
    · rename_i hlt; cases hs
      refine ev_same hi rfl (fun _ _ => rfl) ?_ (fun _ _ _ _ => rfl) hnil hnil'
      intro v hv
      simp only [setBody, upd_apply]
      split
      · rename_i hh; rw [hh]
      · rfl
    · cases hs
  | resBody w b =>
    simp only [sys, step] at hs
    split at hs
    · rename_i hlt; cases hs
      refine ev_same hi rfl (fun _ _ => rfl) ?_ (fun _ _ _ _ => rfl) hnil hnil'
      intro v hv
      simp only [setBody, upd_apply]
      split
      · rename_i hh; rw [hh]
      · rfl
    · cases hs
  | reqCustom w b =>
    simp only [sys, step] at hs
    split at hs
    · rcases setCustom_cases s (s.wr w).req b with ⟨q, _, he⟩ | ⟨_, he⟩ <;> rw [he] at hs <;> cases hs
      · refine ev_same hi rfl (fun _ _ => rfl) (fun _ _ => rfl) ?_ hnil hnil'
        intro v p _ _
        simp only [upd_apply]
        split
        · rename_i hh; rw [hh]
        · rfl
      · exact ev_same hi rfl (fun _ _ => rfl) (fun _ _ => rfl) (fun _ _ _ _ => rfl) (hc _ (by simp))
          (hl _ (by simp [writes]))
    · cases hs
  | resCustom w b =>
    simp only [sys, step] at hs
    split at hs
    · rcases setCustom_cases s (s.wr w).res b with ⟨q, _, he⟩ | ⟨_, he⟩ <;> rw [he] at hs <;> cases hs
      · refine ev_same hi rfl (fun _ _ => rfl) (fun _ _ => rfl) ?_ hnil hnil'
        intro v p _ _
        simp only [upd_apply]
        split
        · rename_i hh; rw [hh]
        · rfl
      · exact ev_same hi rfl (fun _ _ => rfl) (fun _ _ => rfl) (fun _ _ _ _ => rfl) (hc _ (by simp))
          (hl _ (by simp [writes]))
    · cases hs
  | stamp g w a ty ev =>
    simp only [sys, step] at hs
    split at hs
    · split at hs
      · rename_i hlt
        rcases stamp_cases s g w a ty ev with ⟨q, hq, he⟩ | ⟨_, he⟩ <;> rw [he] at hs <;> cases hs
        · exact ev_write hw hi hlt hq rfl rfl rfl ev (by simp)
            (fun p hp => by simp [upd_apply, hp]) (by simp) (fun r => by simp [writes])
        · exact ev_same hi rfl (fun _ _ => rfl) (fun _ _ => rfl) (fun _ _ _ _ => rfl) (hc _ (by simp))
            (hl _ (by simp [writes]))
      · cases hs
    · cases hs
  | push g =>
    simp only [sys, step] at hs
    split at hs
    · cases hs
      exact ev_same hi rfl (fun _ _ => rfl) (fun _ _ => rfl) (fun _ _ _ _ => rfl) (hc _ (by simp))
        (hl _ (by simp [writes]))
    · cases hs
  | drop g =>
    simp only [sys, step] at hs
    split at hs
    · cases hs
      exact ev_same hi rfl (fun _ _ => rfl) (fun _ _ => rfl) (fun _ _ _ _ => rfl) (hc _ (by simp))
        (hl _ (by simp [writes]))
    · cases hs
  | handle a =>
    simp only [sys, step] at hs
    split at hs
    · cases hs
      exact ev_same hi rfl (fun _ _ => rfl) (fun _ _ => rfl) (fun _ _ _ _ => rfl) (hc _ (by simp))
        (hl _ (by simp [writes]))
    · cases hs
  | reply w hd b =>
    simp only [sys, step] at hs
    split at hs
    · cases hs
      refine ev_same hi (by cases hd <;> rfl) ?_ ?_ ?_ (hc _ (by simp)) (hl _ (by simp [writes]))
      · intro v _
        cases hd <;> simp only [reply, upd_apply] <;> split <;> first | rfl | (rename_i hh; rw [hh])
      · intro v hv
        have := hw.req_lt v hv
        cases hd <;> simp only [reply, upd_apply] <;> rw [if_neg (by omega)]
      · intro v p hv hp
        have := hw.hp_lt _ (hw.req_lt v hv) p hp
        cases hd with
        | none => rfl
        | some hd => simp only [reply, upd_apply]; rw [if_neg (by omega)]
    · cases hs
  | take w w' =>
    simp only [sys, step] at hs
    split at hs
    · cases hs
      refine ev_same hi rfl ?_ (fun _ _ => rfl) (fun _ _ _ _ => rfl) (hc _ (by simp))
        (hl _ (by simp [writes]))
      intro v _
      simp only [upd_apply]
      split
      · rename_i hh; rw [hh]
      · rfl
    · cases hs

theorem ev_run {h : List Ev} {s : State} (hr : sys.Run h s) : NoLink h → EvInv h s :=
  hr.invariant (P := fun h s => NoLink h → EvInv h s)
    (fun _ => ⟨by simp [sys, init], by simp [sys, init]⟩)
    (fun _ _ _ _ _ hr hi hs hn => ev_step (wf_run hr) (hi (noLink_left hn)) hs hn)

/-- The state in which a wrapper was handled. -/
theorem handled_at {h : List Ev} {s : State} (hr : sys.Run h s) {h1 h2 : List Ev} {a : String}
    {w : Nat} {e : Option String} (he : h = h1 ++ .handled a w e :: h2) :
    ∃ s0, sys.Run h1 s0 ∧ w ∈ s0.mail a ∧ e = eventOf s0 w := by
  obtain ⟨h0, s0, act, s1, pre, post, as, rest, r0, st, e1, _, _⟩ := hr.split_at he
  have key : ∀ evs : List Ev, sys.step s0 act = some (s1, evs) → ∀ x ∈ evs,
      x = Ev.handled a w e → evs = [Ev.handled a w e] ∧ w ∈ s0.mail a ∧ e = eventOf s0 w := by
    intro evs hs x hx hxe
    subst hxe
    cases act with
    | handle a' =>
      simp only [sys, step] at hs
      split at hs
      · rename_i w' rest' hm
        cases hs
        simp only [List.mem_singleton, Ev.handled.injEq] at hx
        obtain ⟨rfl, rfl, rfl⟩ := hx
        exact ⟨rfl, by rw [hm]; exact List.mem_cons_self, rfl⟩
      · cases hs
    | reqHeader v p =>
      simp only [sys, step] at hs
      split at hs
      · rcases reqHeader_cases s0 v p with ⟨_, _, _, _, he⟩ | ⟨_, _, _, he⟩ | ⟨_, he⟩ <;>
          rw [he] at hs <;> cases hs <;> simp at hx
      · cases hs
    | reqCustom v b =>
      simp only [sys, step] at hs
      split at hs
      · rcases setCustom_cases s0 (s0.wr v).req b with ⟨_, _, he⟩ | ⟨_, he⟩ <;>
          rw [he] at hs <;> cases hs <;> simp at hx
      · cases hs
    | resCustom v b =>
      simp only [sys, step] at hs
      split at hs
      · rcases setCustom_cases s0 (s0.wr v).res b with ⟨_, _, he⟩ | ⟨_, he⟩ <;>
          rw [he] at hs <;> cases hs <;> simp at hx
      · cases hs
    | stamp g v a' ty ev =>
      simp only [sys, step] at hs
      split at hs
      · split at hs
        · rcases stamp_cases s0 g v a' ty ev with ⟨_, _, he⟩ | ⟨_, he⟩ <;>
            rw [he] at hs <;> cases hs <;> simp at hx
        · cases hs
      · cases hs
    | _ =>
      simp only [sys, step] at hs
      (try split at hs) <;> first | cases hs; simp at hx; done | cases hs; done
  obtain ⟨k1, k2, k3⟩ := key _ st (.handled a w e) (by simp) rfl
  have hpre : pre = [] := by
    cases pre with
    | nil => rfl
    | cons x t => simp at k1
  subst hpre
  rw [List.append_nil] at e1
  subst e1
  exact ⟨s0, r0, k2, k3⟩

end Braid.Share
