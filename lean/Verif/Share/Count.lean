import Verif.Share.Lemmas

namespace Braid.Share

/-- What a step emits: at most one event; it speaks of existing wrappers, and new ones get the next
number. -/
theorem step_ev {s : State} {a : Act} {s' : State} {evs : List Ev}
    (hs : sys.step s a = some (s', evs)) :
    s.nw ≤ s'.nw ∧ (evs = [] ∨ ∃ e, evs = [e] ∧ (∀ u, touches e = some u → u < s.nw) ∧
      (∀ v v', e = .swapped v v' → v' = s.nw ∧ v < s.nw) ∧ (∀ v, e = .made v → v = s.nw)) := by
  cases a with
  | reqHeader v p =>
    simp only [sys, step] at hs
    split at hs
    · rename_i hg
      rcases reqHeader_cases s v p with ⟨_, _, _, _, he⟩ | ⟨_, _, _, he⟩ | ⟨_, he⟩ <;>
        rw [he] at hs <;> cases hs <;> simp [touches, hg.1]
    · cases hs
  | reqCustom v b =>
    simp only [sys, step] at hs
    split at hs
    · rcases setCustom_cases s (s.wr v).req b with ⟨_, _, he⟩ | ⟨_, he⟩ <;>
        rw [he] at hs <;> cases hs <;> simp [touches]
    · cases hs
  | resCustom v b =>
    simp only [sys, step] at hs
    split at hs
    · rcases setCustom_cases s (s.wr v).res b with ⟨_, _, he⟩ | ⟨_, he⟩ <;>
        rw [he] at hs <;> cases hs <;> simp [touches]
    · cases hs
  | stamp g v a' ty ev =>
    simp only [sys, step] at hs
    split at hs
    · split at hs
      · rename_i hg
        rcases stamp_cases s g v a' ty ev with ⟨_, _, he⟩ | ⟨_, he⟩ <;>
          rw [he] at hs <;> cases hs <;> simp [touches, hg]
      · cases hs
    · cases hs
  | reply v hd b =>
    simp only [sys, step] at hs
    split at hs
    · cases hs; cases hd <;> simp [touches, reply]
    · cases hs
  | swap v =>
    simp only [sys, step] at hs
    split at hs
    · rename_i hg; cases hs; simp [touches, swapWrapper, hg]
    · cases hs
  | _ =>
    simp only [sys, step] at hs
    (try split at hs) <;> first
      | (cases hs; simp [touches, newWrapper, resHeader, setBody]; done)
      | (cases hs; done)

theorem org_step {h : List Ev} {s : State} {a : Act} {s' : State} {evs : List Ev}
    (hs : sys.step s a = some (s', evs)) {u : Nat} (hu : u < s.nw) :
    origin (h ++ evs).reverse u = origin h.reverse u := by
  rcases (step_ev hs).2 with rfl | ⟨e, rfl, _, h2, _⟩
  · simp
  · by_cases he : ∃ v v', e = .swapped v v'
    · obtain ⟨v, v', rfl⟩ := he
      obtain ⟨rfl, _⟩ := h2 v v' rfl
      rw [origin_swapped, if_neg (by omega)]
    · exact origin_concat (fun v v' hh => he ⟨v, v', hh⟩) h u

theorem org_exec {as : List Act} {h : List Ev} {s : State} {s' : State} {es : List Ev}
    (hs : sys.exec s as = some (s', es)) {u : Nat} (hu : u < s.nw) :
    origin (h ++ es).reverse u = origin h.reverse u := by
  induction as generalizing h s es with
  | nil => simp [Lts.exec] at hs; obtain ⟨rfl, rfl⟩ := hs; simp
  | cons a as ih =>
    simp only [Lts.exec] at hs
    split at hs
    · cases hs
    · rename_i s1 e1 hst
      split at hs
      · cases hs
      · rename_i s2 e2 he
        simp only [Option.some.injEq, Prod.mk.injEq] at hs
        obtain ⟨rfl, rfl⟩ := hs
        rw [← List.append_assoc, ih he (Nat.lt_of_lt_of_le hu (step_ev hst).1), org_step hst hu]

/-- As long as nothing is written through a wrapper with that request, the event stays. -/
theorem last_exec {as : List Act} {h : List Ev} {s : State} {s' : State} {es : List Ev} {r : Nat}
    {x : Option String} (hs : sys.exec s as = some (s', es)) (hr : r < s.nw)
    (hl : lastEvent r h.reverse = x)
    (hu : ∀ e ∈ es, ∀ u, touches e = some u → origin (h ++ es).reverse u ≠ r) :
    lastEvent r (h ++ es).reverse = x := by
  induction as generalizing h s es with
  | nil => simp [Lts.exec] at hs; obtain ⟨rfl, rfl⟩ := hs; simpa using hl
  | cons a as ih =>
    simp only [Lts.exec] at hs
    split at hs
    · cases hs
    · rename_i s1 e1 hst
      split at hs
      · cases hs
      · rename_i s2 e2 he
        simp only [Option.some.injEq, Prod.mk.injEq] at hs
        obtain ⟨rfl, rfl⟩ := hs
        have hse := step_ev hst
        rw [← List.append_assoc]
        refine ih he (Nat.lt_of_lt_of_le hr hse.1) ?_ ?_
        · rcases hse.2 with rfl | ⟨e, rfl, h1, h2, h3⟩
          · simpa using hl
          · rw [lastEvent_other]
            · exact hl
            · have key : ∀ u, touches e = some u → origin h.reverse u ≠ r := by
                intro u htu
                have hlt := h1 u htu
                have := hu e (List.mem_append_left _ (List.mem_singleton.2 rfl)) u htu
                rw [← List.append_assoc, org_exec he (Nat.lt_of_lt_of_le hlt hse.1),
                  org_step hst hlt] at this
                exact this
              cases e with
              | made v =>
                have := h3 v rfl
                simp only [writes]; rw [if_neg (by omega)]
              | stamped g w a ev => simp only [writes]; rw [if_neg (key w rfl)]
              | copied w hd => simp only [writes]; rw [if_neg (key w rfl)]
              | cleared w => simp only [writes]; rw [if_neg (key w rfl)]
              | _ => rfl
        · intro e hm u htu
          have := hu e (List.mem_append_right _ hm) u htu
          rwa [← List.append_assoc] at this

/-- Sends and deliveries of one goroutine, and deliveries into and removals from one mailbox. -/
structure Counts (h : List Ev) (s : State) : Prop where
  sent : ∀ g w a, h.countP (isStamped g w a)
    = h.countP (isPushed g w a) + h.countP (isDropped g w a) + pending s g w a
  queued : ∀ w a, h.countP (isQueued w a) = h.countP (isHandled w a) + (s.mail a).count w

theorem counts_same {h : List Ev} {s s' : State} {evs : List Ev} (hi : Counts h s)
    (hpc : s'.pc = s.pc) (hm : s'.mail = s.mail)
    (hev : ∀ e ∈ evs, ∀ g w a, isStamped g w a e = false ∧ isPushed g w a e = false ∧
      isDropped g w a e = false ∧ isQueued w a e = false ∧ isHandled w a e = false) :
    Counts (h ++ evs) s' := by
  constructor
  · intro g w a
    have h1 : evs.countP (isStamped g w a) = 0 := by
      rw [List.countP_eq_zero]; intro e he; simp [(hev e he g w a).1]
    have h2 : evs.countP (isPushed g w a) = 0 := by
      rw [List.countP_eq_zero]; intro e he; simp [(hev e he g w a).2.1]
    have h3 : evs.countP (isDropped g w a) = 0 := by
      rw [List.countP_eq_zero]; intro e he; simp [(hev e he g w a).2.2.1]
    have := hi.sent g w a
    simp only [List.countP_append, pending, hpc] at this ⊢
    omega
  · intro w a
    have h1 : evs.countP (isQueued w a) = 0 := by
      rw [List.countP_eq_zero]; intro e he; simp [(hev e he 0 w a).2.2.2.1]
    have h2 : evs.countP (isHandled w a) = 0 := by
      rw [List.countP_eq_zero]; intro e he; simp [(hev e he 0 w a).2.2.2.2]
    have := hi.queued w a
    simp only [List.countP_append, hm] at this ⊢
    omega

theorem counts_step {h : List Ev} {s : State} {a : Act} {s' : State} {evs : List Ev}
    (hi : Counts h s) (hs : sys.step s a = some (s', evs)) : Counts (h ++ evs) s' := by
  cases a with
  | reqHeader v p =>
    simp only [sys, step] at hs
    split at hs
    · rcases reqHeader_cases s v p with ⟨_, _, _, _, he⟩ | ⟨_, _, _, he⟩ | ⟨_, he⟩ <;>
        rw [he] at hs <;> cases hs <;> refine counts_same hi rfl rfl ?_ <;>
        simp [isStamped, isPushed, isDropped, isQueued, isHandled]
    · cases hs
  | reqCustom v b =>
    simp only [sys, step] at hs
    split at hs
    · rcases setCustom_cases s (s.wr v).req b with ⟨_, _, he⟩ | ⟨_, he⟩ <;>
        rw [he] at hs <;> cases hs <;> refine counts_same hi rfl rfl ?_ <;>
        simp [isStamped, isPushed, isDropped, isQueued, isHandled]
    · cases hs
  | resCustom v b =>
    simp only [sys, step] at hs
    split at hs
    · rcases setCustom_cases s (s.wr v).res b with ⟨_, _, he⟩ | ⟨_, he⟩ <;>
        rw [he] at hs <;> cases hs <;> refine counts_same hi rfl rfl ?_ <;>
        simp [isStamped, isPushed, isDropped, isQueued, isHandled]
    · cases hs
  | reply v hd b =>
    simp only [sys, step] at hs
    split at hs
    · cases hs
      cases hd <;> refine counts_same hi rfl rfl ?_ <;>
        simp [isStamped, isPushed, isDropped, isQueued, isHandled]
    · cases hs
  | stamp g v a' ty ev =>
    simp only [sys, step] at hs
    split at hs
    · rename_i hidle
      split at hs
      · rcases stamp_cases s g v a' ty ev with ⟨_, _, he⟩ | ⟨_, he⟩ <;> rw [he] at hs <;> cases hs
        · constructor
          · intro g0 w0 a0
            have := hi.sent g0 w0 a0
            simp only [List.countP_append, List.countP_cons, List.countP_nil, isStamped, isPushed,
              isDropped, pending, upd_apply] at this ⊢
            by_cases e : g0 = g
            · subst e
              rw [hidle] at this
              simp only [if_true, true_and] at this ⊢
              by_cases e2 : v = w0 ∧ a' = a0
              · simp [e2]; simp at this; omega
              · simp [e2]; simp at this; omega
            · have e' : ¬ g = g0 := fun hh => e hh.symm
              simp [e, e']; exact this
          · intro w0 a0
            have := hi.queued w0 a0
            simp only [List.countP_append, List.countP_cons, List.countP_nil, isQueued, isHandled]
            simpa using this
        · refine counts_same hi rfl rfl ?_
          simp [isStamped, isPushed, isDropped, isQueued, isHandled]
      · cases hs
    · cases hs
  | push g =>
    simp only [sys, step] at hs
    split at hs
    · rename_i v a' hpc
      cases hs
      constructor
      · intro g0 w0 a0
        have := hi.sent g0 w0 a0
        simp only [List.countP_append, List.countP_cons, List.countP_nil, isStamped, isPushed,
          isDropped, pending, upd_apply] at this ⊢
        by_cases e : g0 = g
        · subst e
          rw [hpc] at this
          simp only [if_true, true_and] at this ⊢
          by_cases e2 : v = w0 ∧ a' = a0
          · simp [e2] at this ⊢; omega
          · simp [e2] at this ⊢; omega
        · have e' : ¬ g = g0 := fun hh => e hh.symm
          simp [e, e']; exact this
      · intro w0 a0
        have := hi.queued w0 a0
        simp only [List.countP_append, List.countP_cons, List.countP_nil, isQueued, isHandled,
          upd_apply]
        by_cases e : a0 = a'
        · subst e
          by_cases e2 : v = w0
          · subst e2; simp [List.count_append]; omega
          · simp [List.count_append, e2]; omega
        · have e' : ¬ a' = a0 := fun hh => e hh.symm
          simp [e, e']; exact this
    · cases hs
  | drop g =>
    simp only [sys, step] at hs
    split at hs
    · rename_i v a' hpc
      cases hs
      constructor
      · intro g0 w0 a0
        have := hi.sent g0 w0 a0
        simp only [List.countP_append, List.countP_cons, List.countP_nil, isStamped, isPushed,
          isDropped, pending, upd_apply] at this ⊢
        by_cases e : g0 = g
        · subst e
          rw [hpc] at this
          simp only [if_true, true_and] at this ⊢
          by_cases e2 : v = w0 ∧ a' = a0
          · simp [e2] at this ⊢; omega
          · simp [e2] at this ⊢; omega
        · have e' : ¬ g = g0 := fun hh => e hh.symm
          simp [e, e']; exact this
      · intro w0 a0
        have := hi.queued w0 a0
        simp only [List.countP_append, List.countP_cons, List.countP_nil, isQueued, isHandled]
        simpa using this
    · cases hs
  | handle a' =>
    simp only [sys, step] at hs
    split at hs
    · rename_i v rest hm
      cases hs
      constructor
      · intro g0 w0 a0
        have := hi.sent g0 w0 a0
        simp only [List.countP_append, List.countP_cons, List.countP_nil, isStamped, isPushed,
          isDropped, pending] at this ⊢
        simpa using this
      · intro w0 a0
        have := hi.queued w0 a0
        simp only [List.countP_append, List.countP_cons, List.countP_nil, isQueued, isHandled,
          upd_apply]
        by_cases e : a0 = a'
        · subst e
          rw [hm] at this
          by_cases e2 : v = w0
          · subst e2; simp at this ⊢; omega
          · simp [e2] at this ⊢; omega
        · have e' : ¬ a' = a0 := fun hh => e hh.symm
          simp [e, e']; exact this
    · cases hs
  | _ =>
    simp only [sys, step] at hs
    (try split at hs) <;> first
      | (cases hs; refine counts_same hi rfl rfl ?_
         simp [isStamped, isPushed, isDropped, isQueued, isHandled]; done)
      | (cases hs; done)

theorem counts_run {h : List Ev} {s : State} (hr : sys.Run h s) : Counts h s :=
  hr.invariant (P := Counts) ⟨by simp [sys, init, pending], by simp [sys, init]⟩
    (fun _ _ _ _ _ _ hi hs => counts_step hi hs)

end Braid.Share
