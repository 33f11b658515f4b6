import Verif.Share.Private

namespace Braid.Share

theorem noShare_left {h evs : List Ev} (hn : NoShare (h ++ evs)) : NoShare h :=
  fun w w' => ⟨fun hm => (hn w w').1 (List.mem_append_left _ hm),
    fun hm => (hn w w').2 (List.mem_append_left _ hm)⟩

theorem origin_self : ∀ (h : List Ev), (∀ w w', Ev.swapped w w' ∉ h) → ∀ w, origin h w = w
  | [], _, _ => rfl
  | e :: h, hn, w => by
    have hne : ∀ v v', e ≠ .swapped v v' := by
      intro v v' he; exact hn v v' (by rw [he]; exact List.mem_cons_self)
    rw [origin_other hne]
    exact origin_self h (fun v v' hm => hn v v' (List.mem_cons_of_mem _ hm)) w

/-- Distinct wrappers have distinct responses as long as none was handed on. -/
theorem res_run {h : List Ev} {s : State} (hr : sys.Run h s) : NoShare h →
    ∀ w w', w < s.nw → w' < s.nw → (s.wr w).res = (s.wr w').res → w = w' := by
  refine hr.invariant (P := fun h s => NoShare h →
    ∀ w w', w < s.nw → w' < s.nw → (s.wr w).res = (s.wr w').res → w = w')
    (fun _ => by simp [sys, init]) ?_
  intro h s a s' evs hr hi hs hn
  have hw := wf_run hr
  have hi := hi (noShare_left hn)
  cases a with
  | new ctx uid =>
    simp only [sys, step] at hs
    split at hs
    · cases hs
      intro w w' h1 h2 h3
      simp only [newWrapper, upd_apply] at h1 h2 h3
      by_cases e1 : w = s.nw <;> by_cases e2 : w' = s.nw
      · omega
      · have := hw.res_lt w' (by omega)
        rw [if_pos e1, if_neg e2] at h3; simp only at h3; omega
      · have := hw.res_lt w (by omega)
        rw [if_neg e1, if_pos e2] at h3; simp only at h3; omega
      · rw [if_neg e1, if_neg e2] at h3; exact hi w w' (by omega) (by omega) h3
    · cases hs
  | swap v =>
    simp only [sys, step] at hs
    split at hs
    · cases hs; exact absurd (List.mem_append_right _ (List.mem_singleton.2 rfl)) (hn v s.nw).1
    · cases hs
  | take v v' =>
    simp only [sys, step] at hs
    split at hs
    · cases hs; exact absurd (List.mem_append_right _ (List.mem_singleton.2 rfl)) (hn v v').2
    · cases hs
  | reply v hd b =>
    simp only [sys, step] at hs
    split at hs
    · cases hs
      have hr' : ∀ w, ((reply s v hd b).wr w).res = if w = v then s.nm else (s.wr w).res := by
        intro w; cases hd <;> simp only [reply, upd_apply] <;> split <;> rfl
      have hn' : (reply s v hd b).nw = s.nw := by cases hd <;> rfl
      intro w w' h1 h2 h3
      rw [hn'] at h1 h2
      rw [hr', hr'] at h3
      have := hw.res_lt w h1
      have := hw.res_lt w' h2
      split at h3
      · split at h3
        · omega
        · omega
      · split at h3
        · omega
        · exact hi w w' h1 h2 h3
    · cases hs
  | reqHeader v p =>
    simp only [sys, step] at hs
    split at hs
    · rcases reqHeader_cases s v p with ⟨_, _, _, _, he⟩ | ⟨_, _, _, he⟩ | ⟨_, he⟩ <;>
        rw [he] at hs <;> cases hs <;> exact hi
    · cases hs
  | reqCustom v b =>
    simp only [sys, step] at hs
    split at hs
    · rcases setCustom_cases s (s.wr v).req b with ⟨_, _, he⟩ | ⟨_, he⟩ <;>
        rw [he] at hs <;> cases hs <;> exact hi
    · cases hs
  | resCustom v b =>
    simp only [sys, step] at hs
    split at hs
    · rcases setCustom_cases s (s.wr v).res b with ⟨_, _, he⟩ | ⟨_, he⟩ <;>
        rw [he] at hs <;> cases hs <;> exact hi
    · cases hs
  | stamp g v a' ty ev =>
    simp only [sys, step] at hs
    split at hs
    · split at hs
      · rcases stamp_cases s g v a' ty ev with ⟨_, _, he⟩ | ⟨_, he⟩ <;>
          rw [he] at hs <;> cases hs <;> exact hi
      · cases hs
    · cases hs
  | _ =>
    simp only [sys, step] at hs
    (try split at hs) <;> first
      | (cases hs; exact hi)
      | (cases hs; done)

/-- An action writes into no message but its target. -/
theorem frame {h : List Ev} {s : State} {a : Act} {s' : State} {evs : List Ev} (hw : WF h s)
    (hp : Priv h s) (hs : sys.step s a = some (s', evs)) {m : Nat} (hm : m < s.nm)
    (ht : ∀ w b, target a = some (w, b) → side s w b ≠ m) : look s' m = look s m := by
  have hcell : ∀ (m0 : Nat) (c : Cell), m0 ≠ m → ∀ s' : State, s'.hdr = s.hdr →
      s'.cell = upd s.cell m0 c → look s' m = look s m := by
    intro m0 c hne s' h1 h2
    unfold look
    rw [h1, h2, upd_of_ne _ _ (Ne.symm hne)]
  have hhdr : ∀ (m0 p : Nat) (x : Hdr), m0 ≠ m → m0 < s.nm → (s.cell m0).hp = some p →
      ∀ s' : State, s'.cell = s.cell → s'.hdr = upd s.hdr p x → look s' m = look s m := by
    intro m0 p x hne hlt hq s' h1 h2
    exact look_upd x (fun hh => hne (hp.priv m0 m p hlt hm hq hh)) s' h1 h2
  have hnew : ∀ s' : State, (∀ k, k < s.nm → s'.cell k = s.cell k) →
      (∀ p, p < s.nh → s'.hdr p = s.hdr p) → look s' m = look s m := by
    intro s' h1 h2
    unfold look
    rw [h1 m hm]
    cases hq : (s.cell m).hp with
    | none => rfl
    | some p => simp [h2 p (hw.hp_lt m hm p hq)]
  cases a with
  | new ctx uid =>
    simp only [sys, step] at hs
    split at hs
    · cases hs
      refine hnew _ ?_ ?_
      · intro k hk
        simp only [newWrapper, upd_apply]; rw [if_neg (by omega), if_neg (by omega)]
      · intro k hk
        simp only [newWrapper, upd_apply]; rw [if_neg (by omega), if_neg (by omega)]
    · cases hs
  | header hd =>
    simp only [sys, step] at hs
    cases hs
    refine hnew _ (fun _ _ => rfl) ?_
    intro k hk
    simp only [upd_apply]; rw [if_neg (by omega)]
  | reply v hd b =>
    simp only [sys, step] at hs
    split at hs
    · cases hs
      refine hnew _ ?_ ?_
      · intro k hk
        cases hd <;> simp only [reply, upd_apply] <;> rw [if_neg (by omega)]
      · intro k hk
        cases hd with
        | none => rfl
        | some hd => simp only [reply, upd_apply]; rw [if_neg (by omega)]
    · cases hs
  | reqHeader v p =>
    have hne : (s.wr v).req ≠ m := ht v true rfl
    simp only [sys, step] at hs
    split at hs
    · rename_i hg
      rcases reqHeader_cases s v p with ⟨q, _, hq, _, he⟩ | ⟨_, _, _, he⟩ | ⟨_, he⟩ <;>
        rw [he] at hs <;> cases hs
      · exact hhdr _ q _ hne (hw.req_lt v hg.1) hq _ rfl rfl
      · exact hcell _ _ hne _ rfl rfl
      · exact hcell _ _ hne _ rfl rfl
    · cases hs
  | resHeader v p =>
    have hne : (s.wr v).res ≠ m := ht v false rfl
    simp only [sys, step] at hs
    split at hs
    · cases hs; exact hcell _ _ hne _ rfl rfl
    · cases hs
  | reqBody v b =>
    have hne : (s.wr v).req ≠ m := ht v true rfl
    simp only [sys, step] at hs
    split at hs
    · cases hs; exact hcell _ _ hne _ rfl rfl
    · cases hs
  | resBody v b =>
    have hne : (s.wr v).res ≠ m := ht v false rfl
    simp only [sys, step] at hs
    split at hs
    · cases hs; exact hcell _ _ hne _ rfl rfl
    · cases hs
  | reqCustom v b =>
    have hne : (s.wr v).req ≠ m := ht v true rfl
    simp only [sys, step] at hs
    split at hs
    · rename_i hg
      rcases setCustom_cases s (s.wr v).req b with ⟨q, hq, he⟩ | ⟨_, he⟩ <;>
        rw [he] at hs <;> cases hs
      · exact hhdr _ q _ hne (hw.req_lt v hg) hq _ rfl rfl
      · rfl
    · cases hs
  | resCustom v b =>
    have hne : (s.wr v).res ≠ m := ht v false rfl
    simp only [sys, step] at hs
    split at hs
    · rename_i hg
      rcases setCustom_cases s (s.wr v).res b with ⟨q, hq, he⟩ | ⟨_, he⟩ <;>
        rw [he] at hs <;> cases hs
      · exact hhdr _ q _ hne (hw.res_lt v hg) hq _ rfl rfl
      · rfl
    · cases hs
  | stamp g v a' ty ev =>
    have hne : (s.wr v).req ≠ m := ht v true rfl
    simp only [sys, step] at hs
    split at hs
    · split at hs
      · rename_i hg
        rcases stamp_cases s g v a' ty ev with ⟨q, hq, he⟩ | ⟨_, he⟩ <;>
          rw [he] at hs <;> cases hs
        · exact hhdr _ q _ hne (hw.req_lt v hg) hq _ rfl rfl
        · rfl
      · cases hs
    · cases hs
  | _ =>
    simp only [sys, step] at hs
    (try split at hs) <;> first
      | (cases hs; rfl)
      | (cases hs; done)

/-- What an action makes of its target. -/
theorem effect {s : State} {a : Act} {s' : State} {evs : List Ev}
    (hs : sys.step s a = some (s', evs)) {w : Nat} {b : Bool} (ht : target a = some (w, b)) :
    look s' (side s w b) = written s.hdr a (look s (side s w b)) ∧
    (Ev.panicked ∈ evs ↔ needsHeader a = true ∧ (look s (side s w b)).1 = none) := by
  cases a with
  | reqHeader v p =>
    cases ht
    simp only [sys, step] at hs
    split at hs
    · rcases reqHeader_cases s w p with ⟨q, r, hq, rfl, he⟩ | ⟨hq, r, rfl, he⟩ | ⟨rfl, he⟩ <;>
        rw [he] at hs <;> cases hs
      · simp [look, side, hq, written, copyFrom, needsHeader]
      · simp [look, side, hq, written, needsHeader]
      · simp [look, side, written, needsHeader]
    · cases hs
  | resHeader v p =>
    cases ht
    simp only [sys, step] at hs
    split at hs
    · cases hs; simp [look, side, written, needsHeader, resHeader]
    · cases hs
  | reqBody v b =>
    cases ht
    simp only [sys, step] at hs
    split at hs
    · cases hs; simp [look, side, written, needsHeader, setBody]
    · cases hs
  | resBody v b =>
    cases ht
    simp only [sys, step] at hs
    split at hs
    · cases hs; simp [look, side, written, needsHeader, setBody]
    · cases hs
  | reqCustom v b =>
    cases ht
    simp only [sys, step] at hs
    split at hs
    · rcases setCustom_cases s (s.wr w).req b with ⟨q, hq, he⟩ | ⟨hq, he⟩ <;>
        rw [he] at hs <;> cases hs <;> simp [look, side, written, needsHeader, hq]
    · cases hs
  | resCustom v b =>
    cases ht
    simp only [sys, step] at hs
    split at hs
    · rcases setCustom_cases s (s.wr w).res b with ⟨q, hq, he⟩ | ⟨hq, he⟩ <;>
        rw [he] at hs <;> cases hs <;> simp [look, side, written, needsHeader, hq]
    · cases hs
  | stamp g v a' ty ev =>
    cases ht
    simp only [sys, step] at hs
    split at hs
    · split at hs
      · rcases stamp_cases s g w a' ty ev with ⟨q, hq, he⟩ | ⟨hq, he⟩ <;>
          rw [he] at hs <;> cases hs <;> simp [look, side, written, needsHeader, hq]
      · cases hs
    · cases hs
  | _ => cases ht

/-- The pointers of existing wrappers. -/
theorem pointers {s : State} {a : Act} {s' : State} {evs : List Ev}
    (hs : sys.step s a = some (s', evs)) {w : Nat} (hlt : w < s.nw) :
    (s'.wr w).req = (s.wr w).req ∧ (s'.wr w).grp = (s.wr w).grp ∧ (s'.wr w).done = (s.wr w).done ∧
    ((∀ h b, a ≠ .reply w h b) → (∀ v, a ≠ .take w v) → (s'.wr w).res = (s.wr w).res) := by
  cases a with
  | new ctx uid =>
    simp only [sys, step] at hs
    split at hs
    · cases hs
      have : ((newWrapper s ctx uid).wr w) = s.wr w := by
        simp only [newWrapper, upd_apply]; rw [if_neg (by omega)]
      rw [this]; simp
    · cases hs
  | swap v =>
    simp only [sys, step] at hs
    split at hs
    · cases hs
      have : ((swapWrapper s v).wr w) = s.wr w := by
        simp only [swapWrapper, upd_apply]; rw [if_neg (by omega)]
      rw [this]; simp
    · cases hs
  | reply v hd b =>
    simp only [sys, step] at hs
    split at hs
    · cases hs
      have : ((reply s v hd b).wr w) = if w = v then { s.wr v with res := s.nm } else s.wr w := by
        cases hd <;> simp only [reply, upd_apply]
      rw [this]
      by_cases e : w = v
      · subst e
        simp only [if_true, true_and]
        intro hh; exact absurd rfl (hh hd b)
      · simp [e]
    · cases hs
  | take v v' =>
    simp only [sys, step] at hs
    split at hs
    · cases hs
      simp only [upd_apply]
      by_cases e : w = v
      · subst e
        simp only [if_true, true_and]
        intro _ hh; exact absurd rfl (hh v')
      · simp [e]
    · cases hs
  | reqHeader v p =>
    simp only [sys, step] at hs
    split at hs
    · rcases reqHeader_cases s v p with ⟨_, _, _, _, he⟩ | ⟨_, _, _, he⟩ | ⟨_, he⟩ <;>
        rw [he] at hs <;> cases hs <;> simp
    · cases hs
  | reqCustom v b =>
    simp only [sys, step] at hs
    split at hs
    · rcases setCustom_cases s (s.wr v).req b with ⟨_, _, he⟩ | ⟨_, he⟩ <;>
        rw [he] at hs <;> cases hs <;> simp
    · cases hs
  | resCustom v b =>
    simp only [sys, step] at hs
    split at hs
    · rcases setCustom_cases s (s.wr v).res b with ⟨_, _, he⟩ | ⟨_, he⟩ <;>
        rw [he] at hs <;> cases hs <;> simp
    · cases hs
  | stamp g v a' ty ev =>
    simp only [sys, step] at hs
    split at hs
    · split at hs
      · rcases stamp_cases s g v a' ty ev with ⟨_, _, he⟩ | ⟨_, he⟩ <;>
          rw [he] at hs <;> cases hs <;> simp
      · cases hs
    · cases hs
  | _ =>
    simp only [sys, step] at hs
    (try split at hs) <;> first
      | (cases hs; simp [resHeader, setBody]; done)
      | (cases hs; done)

end Braid.Share
