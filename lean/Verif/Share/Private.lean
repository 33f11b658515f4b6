import Verif.Share.Inv

namespace Braid.Share

/-- No two messages have the same header, and no message has a header that the caller made and has not
given away. -/
structure Priv (h : List Ev) (s : State) : Prop where
  priv : ∀ m m' p, m < s.nm → m' < s.nm → (s.cell m).hp = some p → (s.cell m').hp = some p → m = m'
  free : ∀ p, Ev.header p ∈ h → h.countP (linkOf p) = 0 → ∀ m, m < s.nm → (s.cell m).hp ≠ some p

/-- A step that emits no header event with a new number keeps the discipline to its past. -/
theorem once_left {h : List Ev} {s : State} {a : Act} {s' : State} {evs : List Ev} (hw : WF h s)
    (hs : sys.step s a = some (s', evs)) (ho : Once (h ++ evs)) : Once h := by
  have hev : ∀ p, Ev.header p ∈ evs → s.nh ≤ p := by
    intro p hp
    cases a with
    | header hd =>
      simp only [sys, step] at hs
      cases hs
      simp only [List.mem_singleton, Ev.header.injEq] at hp
      omega
    | reqHeader v p =>
      simp only [sys, step] at hs
      split at hs
      · rcases reqHeader_cases s v p with ⟨_, _, _, _, he⟩ | ⟨_, _, _, he⟩ | ⟨_, he⟩ <;>
          rw [he] at hs <;> cases hs <;> simp at hp
      · cases hs
    | reqCustom v b =>
      simp only [sys, step] at hs
      split at hs
      · rcases setCustom_cases s (s.wr v).req b with ⟨_, _, he⟩ | ⟨_, he⟩ <;>
          rw [he] at hs <;> cases hs <;> simp at hp
      · cases hs
    | resCustom v b =>
      simp only [sys, step] at hs
      split at hs
      · rcases setCustom_cases s (s.wr v).res b with ⟨_, _, he⟩ | ⟨_, he⟩ <;>
          rw [he] at hs <;> cases hs <;> simp at hp
      · cases hs
    | stamp g v a' ty ev =>
      simp only [sys, step] at hs
      split at hs
      · split at hs
        · rcases stamp_cases s g v a' ty ev with ⟨_, _, he⟩ | ⟨_, he⟩ <;>
            rw [he] at hs <;> cases hs <;> simp at hp
        · cases hs
      · cases hs
    | _ =>
      simp only [sys, step] at hs
      (try split at hs) <;> first | cases hs; simp at hp; done | cases hs; done
  intro p
  obtain ⟨h1, h2⟩ := ho p
  rw [List.countP_append] at h1 h2
  refine ⟨by omega, fun h0 => ?_⟩
  rcases List.mem_append.1 (h2 (by omega)) with hm | hm
  · exact hm
  · have := hev p hm
    have := hw.link_lt p h0
    omega

/-- A step that leaves the messages' header pointers as they were. -/
theorem priv_same {h : List Ev} {s s' : State} {evs : List Ev} (hi : Priv h s) (hnm : s'.nm = s.nm)
    (hhp : ∀ m, (s'.cell m).hp = (s.cell m).hp) (hev : ∀ p, Ev.header p ∉ evs) :
    Priv (h ++ evs) s' := by
  constructor
  · intro m m' p h1 h2
    rw [hhp, hhp]
    exact hi.priv m m' p (hnm ▸ h1) (hnm ▸ h2)
  · intro p hp h0 m hm
    rw [List.countP_append] at h0
    rw [hhp]
    exact hi.free p ((List.mem_append.1 hp).resolve_right (hev p)) (by omega) m (hnm ▸ hm)

/-- A step that removes or gives one header pointer. -/
theorem priv_set {h : List Ev} {s s' : State} {e : Ev} (hi : Priv h s) {m0 : Nat} {q : Option Nat}
    (hnm : s'.nm = s.nm)
    (hhp : ∀ m, (s'.cell m).hp = if m = m0 then q else (s.cell m).hp) (hev : ∀ p, e ≠ .header p)
    (hq : ∀ p, q = some p → linkOf p e = true) (ho : Once (h ++ [e])) : Priv (h ++ [e]) s' := by
  have hfree : ∀ p, q = some p → ∀ m, m < s.nm → (s.cell m).hp ≠ some p := by
    intro p hp m hm
    obtain ⟨h1, h2⟩ := ho p
    rw [List.countP_append] at h1 h2
    have h3 : [e].countP (linkOf p) = 1 := by simp [hq p hp]
    have h4 := h2 (by omega)
    refine hi.free p ?_ (by omega) m hm
    rcases List.mem_append.1 h4 with h4 | h4
    · exact h4
    · exact absurd (List.mem_singleton.1 h4).symm (hev p)
  constructor
  · intro m m' p h1 h2 h3 h4
    rw [hhp] at h3 h4
    rw [hnm] at h1 h2
    split at h3
    · split at h4
      · rename_i e1 e2; rw [e1, e2]
      · exact absurd h4 (hfree p h3 m' h2)
    · split at h4
      · exact absurd h3 (hfree p h4 m h1)
      · exact hi.priv m m' p h1 h2 h3 h4
  · intro p hp h0 m hm
    rw [List.countP_append] at h0
    rw [hnm] at hm
    rw [hhp]
    have hp' : Ev.header p ∈ h := by
      rcases List.mem_append.1 hp with hp | hp
      · exact hp
      · exact absurd (List.mem_singleton.1 hp).symm (hev p)
    split
    · intro hh
      have : [e].countP (linkOf p) = 1 := by simp [hq p hh]
      omega
    · exact hi.free p hp' (by omega) m hm

theorem priv_step {h : List Ev} {s : State} {a : Act} {s' : State} {evs : List Ev} (hw : WF h s)
    (hi : Priv h s) (hs : sys.step s a = some (s', evs)) (ho : Once (h ++ evs)) :
    Priv (h ++ evs) s' := by
  have hset : ∀ (m0 : Nat) (q : Option Nat) (b : Bytes) (m : Nat),
      (upd s.cell m0 ⟨q, b⟩ m).hp = if m = m0 then q else (s.cell m).hp := by
    intro m0 q b m; rw [upd_apply]; split <;> rfl
  have hbody : ∀ (m0 : Nat) (b : Bytes) (m : Nat),
      (upd s.cell m0 ⟨(s.cell m0).hp, b⟩ m).hp = (s.cell m).hp := by
    intro m0 b m; rw [hset]; split
    · rename_i hh; rw [hh]
    · rfl
  have hid : ∀ m, (s.cell m).hp = (s.cell m).hp := fun _ => rfl
  cases a with
  | new ctx uid =>
    simp only [sys, step] at hs
    split at hs
    · cases hs
      have hc : ∀ m, ((newWrapper s ctx uid).cell m).hp
          = if m = s.nm + 1 then some (s.nh + 1) else if m = s.nm then some s.nh else (s.cell m).hp := by
        intro m; simp only [newWrapper, upd_apply]
        split
        · rfl
        · split <;> rfl
      constructor
      · intro m m' p h1 h2 h3 h4
        simp only [newWrapper] at h1 h2
        rw [hc] at h3 h4
        split at h3
        · rename_i a1
          simp only [Option.some.injEq] at h3
          split at h4
          · omega
          · split at h4
            · simp only [Option.some.injEq] at h4; omega
            · have := hw.hp_lt m' (by omega) p h4; omega
        · split at h3
          · simp only [Option.some.injEq] at h3
            split at h4
            · simp only [Option.some.injEq] at h4; omega
            · split at h4
              · omega
              · have := hw.hp_lt m' (by omega) p h4; omega
          · have := hw.hp_lt m (by omega) p h3
            split at h4
            · simp only [Option.some.injEq] at h4; omega
            · split at h4
              · simp only [Option.some.injEq] at h4; omega
              · exact hi.priv m m' p (by omega) (by omega) h3 h4
      · intro p hp h0 m hm
        have hp' : Ev.header p ∈ h := by
          rcases List.mem_append.1 hp with hp | hp
          · exact hp
          · simp at hp
        have hlt := hw.header_lt p hp'
        simp only [newWrapper] at hm
        rw [List.countP_append] at h0
        rw [hc]
        split
        · simp only [ne_eq, Option.some.injEq]; omega
        · split
          · simp only [ne_eq, Option.some.injEq]; omega
          · exact hi.free p hp' (by omega) m (by omega)
    · cases hs
  | swap w =>
    simp only [sys, step] at hs
    split at hs
    · cases hs; exact priv_same hi rfl hid (by simp)
    · cases hs
  | header hd =>
    simp only [sys, step] at hs
    cases hs
    constructor
    · exact hi.priv
    · intro p hp h0 m hm
      rw [List.countP_append] at h0
      rcases List.mem_append.1 hp with hp | hp
      · exact hi.free p hp (by omega) m hm
      · simp only [List.mem_singleton, Ev.header.injEq] at hp
        intro hh
        have := hw.hp_lt m hm p hh
        omega
  | reqHeader w p =>
    simp only [sys, step] at hs
    split at hs
    · rcases reqHeader_cases s w p with ⟨q, r, _, rfl, he⟩ | ⟨_, r, rfl, he⟩ | ⟨rfl, he⟩ <;>
        rw [he] at hs <;> cases hs
      · exact priv_same hi rfl hid (by simp)
      · exact priv_set hi rfl (hset _ _ _) (by simp) (by intro p hp; cases hp; simp [linkOf]) ho
      · exact priv_set hi rfl (hset _ _ _) (by simp) (by simp) ho
    · cases hs
  | resHeader w p =>
    simp only [sys, step] at hs
    split at hs
    · cases hs
      exact priv_set hi rfl (hset _ _ _) (by simp) (by intro p hp; subst hp; simp [linkOf]) ho
    · cases hs
  | reqBody w b =>
    simp only [sys, step] at hs
    split at hs
    · cases hs; exact priv_same hi rfl (hbody _ _) (by simp)
    · cases hs
  | resBody w b =>
    simp only [sys, step] at hs
    split at hs
    · cases hs; exact priv_same hi rfl (hbody _ _) (by simp)
    · cases hs
  | reqCustom w b =>
    simp only [sys, step] at hs
    split at hs
    · rcases setCustom_cases s (s.wr w).req b with ⟨q, _, he⟩ | ⟨_, he⟩ <;> rw [he] at hs <;>
        cases hs <;> exact priv_same hi rfl hid (by simp)
    · cases hs
  | resCustom w b =>
    simp only [sys, step] at hs
    split at hs
    · rcases setCustom_cases s (s.wr w).res b with ⟨q, _, he⟩ | ⟨_, he⟩ <;> rw [he] at hs <;>
        cases hs <;> exact priv_same hi rfl hid (by simp)
    · cases hs
  | stamp g w a ty ev =>
    simp only [sys, step] at hs
    split at hs
    · split at hs
      · rcases stamp_cases s g w a ty ev with ⟨q, _, he⟩ | ⟨_, he⟩ <;> rw [he] at hs <;>
          cases hs <;> exact priv_same hi rfl hid (by simp)
      · cases hs
    · cases hs
  | push g =>
    simp only [sys, step] at hs
    split at hs
    · cases hs; exact priv_same hi rfl hid (by simp)
    · cases hs
  | drop g =>
    simp only [sys, step] at hs
    split at hs
    · cases hs; exact priv_same hi rfl hid (by simp)
    · cases hs
  | handle a =>
    simp only [sys, step] at hs
    split at hs
    · cases hs; exact priv_same hi rfl hid (by simp)
    · cases hs
  | reply w hd b =>
    simp only [sys, step] at hs
    split at hs
    · cases hs
      have hc : ∀ m, ((reply s w hd b).cell m).hp
          = if m = s.nm then hd.map (fun _ => s.nh) else (s.cell m).hp := by
        intro m; cases hd <;> simp only [reply, upd_apply] <;> split <;> rfl
      have hn : (reply s w hd b).nm = s.nm + 1 := by cases hd <;> rfl
      constructor
      · intro m m' p h1 h2 h3 h4
        rw [hn] at h1 h2
        rw [hc] at h3 h4
        by_cases a1 : m = s.nm <;> by_cases b1 : m' = s.nm
        · rw [a1, b1]
        · rw [if_pos a1] at h3
          rw [if_neg b1] at h4
          have := hw.hp_lt m' (by omega) p h4
          cases hd <;> simp at h3; omega
        · rw [if_neg a1] at h3
          rw [if_pos b1] at h4
          have := hw.hp_lt m (by omega) p h3
          cases hd <;> simp at h4; omega
        · rw [if_neg a1] at h3
          rw [if_neg b1] at h4
          exact hi.priv m m' p (by omega) (by omega) h3 h4
      · intro p hp h0 m hm
        have hp' : Ev.header p ∈ h := by
          rcases List.mem_append.1 hp with hp | hp
          · exact hp
          · simp at hp
        have hlt := hw.header_lt p hp'
        rw [hn] at hm
        rw [List.countP_append] at h0
        rw [hc]
        split
        · cases hd <;> simp; omega
        · exact hi.free p hp' (by omega) m (by omega)
    · cases hs
  | take w w' =>
    simp only [sys, step] at hs
    split at hs
    · cases hs; exact priv_same hi rfl hid (by simp)
    · cases hs

theorem priv_run {h : List Ev} {s : State} (hr : sys.Run h s) : Once h → Priv h s :=
  hr.invariant (P := fun h s => Once h → Priv h s)
    (fun _ => ⟨by simp [sys, init], by simp [sys, init]⟩)
    (fun _ _ _ _ _ hr hi hs ho => priv_step (wf_run hr) (hi (once_left (wf_run hr) hs ho)) hs ho)

/-- Writing into one header leaves the messages with other headers as they were. -/
theorem look_upd {s : State} {m p : Nat} (x : Hdr) (h : (s.cell m).hp ≠ some p) (s' : State)
    (hc : s'.cell = s.cell) (hh : s'.hdr = upd s.hdr p x) : look s' m = look s m := by
  unfold look
  rw [hc, hh]
  cases hq : (s.cell m).hp with
  | none => rfl
  | some q =>
    have : q ≠ p := by intro e; subst e; exact h hq
    simp [upd_apply, this]

end Braid.Share
