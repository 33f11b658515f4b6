import Verif.TickTask.Disc

namespace Braid.TickTask

theorem quiet_ev {h : List Ev} {evs : List Ev} {d : Nat} (he : begins h = ends h + d)
    (e1 : begins evs = 0) (e2 : ends evs = 0) : begins (h ++ evs) = ends (h ++ evs) + d := by
  rw [begins_append, ends_append]; omega

/-- A caller moves on without changing anything else. -/
theorem disc_pc {h : List Ev} {s s' : State} {evs : List Ev} {φ : Phase} {p : Nat} {v : CPc}
    (D : Disc h s φ) (hp : ∀ q, s.cl q ≠ .idle → q = p) (hcl : s'.cl = upd s.cl p v)
    (h1 : s'.loop = s.loop) (h2 : s'.nloop = s.nloop)
    (h3 : s'.ntk = s.ntk) (h4 : s'.ticker = s.ticker) (h5 : s'.delayed = s.delayed) (h6 : s'.tk = s.tk)
    (h7 : s'.tstate = s.tstate) (e1 : begins evs = 0) (e2 : ends evs = 0) (e3 : ∀ x, sinceStop x evs = x)
    (n1 : s.cl p ≠ .spawn) (n2 : s.cl p ≠ .sset) (hv : ClOk s φ v) : Disc (h ++ evs) s' φ := by
  obtain ⟨d, hd, he⟩ := D.is
  refine disc_client D hp hcl h1 h2 ⟨d, ?_, quiet_ev he e1 e2⟩ ?_ ?_ ?_
  · rw [is_congr h1 h2 h3 h4 h5 h6]; exact hd
  · cases v <;> simp only [ClOk, h7, still_congr h1 h3 h5 h6] at hv ⊢ <;> exact hv
  · rw [h7]
    have hts := D.ts
    cases ht : s.tstate <;> rw [ht] at hts <;> simp only [TsOk] at hts ⊢
    · exact hts
    · rcases hts with h | h | h | ⟨_, q, hq⟩ | ⟨_, q, hq⟩
      · exact .inl h
      · exact .inr (.inl h)
      · exact .inr (.inr (.inl h))
      · have := hp q (by simp [hq]); subst this; exact absurd hq n1
      · have := hp q (by simp [hq]); subst this; exact absurd hq n2
    · exact hts
  · intro n hn
    rw [since_append, e3] at hn
    rw [leftIn_congr h1 h6]
    exact D.since n hn

theorem spawn_shape {s : State} {φ : Phase} {h : List Ev} (D : Disc h s φ) {p : Nat} (hp : s.cl p = .spawn) :
    s.tstate = .run ∧ φ = .quiet := by have := D.cl p; rw [hp] at this; exact this

theorem dead_upd {s s' : State} {l L : Nat} {v : LPc} (hne : l ≠ L) (h1 : s'.loop = upd s.loop L v)
    (h3 : s'.ntk = s.ntk) (h6 : s'.tk = s.tk) (hd : Parked s l) : Parked s' l := by
  simpa only [Parked, h1, h3, h6, upd_of_ne _ _ hne] using hd

/-- Callers' steps. -/
theorem disc_clientStep {c : Cfg} {h : List Ev} {s s' : State} {evs : List Ev} {φ : Phase} {p : Nat}
    (D : Disc h s φ) (hs : client c s p = some (s', evs)) :
    (∃ φ', Disc (h ++ evs) s' φ') ∧ ∀ q, Ev.stopCrash q ∉ evs := by
  have hc := D.cl p
  have hone : s.cl p ≠ .idle → ∀ q, s.cl q ≠ .idle → q = p := fun hp q hq => D.one q p hq hp
  unfold client at hs
  cases hp : s.cl p with
  | idle => rw [hp] at hs; cases hs
  | lock =>
    rw [hp] at hs hc
    dsimp only at hs
    split at hs
    · cases hs
    · cases hs
      exact ⟨⟨φ, disc_pc D (hone (by simp [hp])) rfl rfl rfl rfl rfl rfl rfl rfl rfl rfl (fun _ => rfl)
        (by simp [hp]) (by simp [hp]) hc⟩, by simp⟩
  | check =>
    rw [hp] at hs hc
    dsimp only at hs
    split at hs
    · rename_i ht
      cases hs
      exact ⟨⟨φ, disc_pc D (hone (by simp [hp])) rfl rfl rfl rfl rfl rfl rfl rfl rfl rfl (fun _ => rfl)
        (by simp [hp]) (by simp [hp]) ht⟩, by simp⟩
    · rename_i ht
      cases hs
      exact ⟨⟨φ, disc_pc D (hone (by simp [hp])) rfl rfl rfl rfl rfl rfl rfl rfl rfl rfl (fun _ => rfl)
        (by simp [hp]) (by simp [hp]) ⟨ht, hc.resolve_left ht⟩⟩, by simp⟩
  | set =>
    rw [hp] at hs hc
    dsimp only at hs
    cases hs
    obtain ⟨hq, he⟩ := still_quiet D hc.2
    refine ⟨⟨.quiet, disc_client D (hone (by simp [hp])) rfl rfl rfl ⟨0, ?_, quiet_ev he rfl rfl⟩ ?_ ?_ ?_⟩, by simp⟩
    · rw [is_congr (s := s)] <;> first | rfl | exact hq
    · exact ⟨rfl, rfl⟩
    · exact .inr (.inr (.inr (.inl ⟨rfl, p, upd_same _ _ _⟩)))
    · intro n hn
      rw [List.append_nil] at hn
      obtain ⟨m, _, hm⟩ := D.since n hn
      exact ⟨0, rfl, by omega⟩
  | spawn =>
    rw [hp] at hs hc
    dsimp only at hs
    obtain ⟨ht, rfl⟩ := hc
    obtain ⟨d, ⟨h1, h2, rfl⟩, he⟩ := D.is
    have hsince : ∀ n, sinceStop none (h ++ [Ev.started p]) = some n → False := by
      intro n hn; rw [since_append] at hn; cases hn
    have hidle : ∀ q, q ≠ p → s.cl q = .idle := by
      intro q hq
      by_cases e : s.cl q = .idle
      · exact e
      · exact absurd (hone (by simp [hp]) q e) hq
    have hone' : ∀ q r, upd s.cl p (.unlock true) q ≠ .idle → upd s.cl p (.unlock true) r ≠ .idle → q = r := by
      intro q r hq hr
      simp only [upd_apply] at hq hr
      split at hq
      · split at hr
        · omega
        · rename_i e; exact absurd (hidle r e) hr
      · rename_i e; exact absurd (hidle q e) hq
    unfold spawn at hs
    split at hs <;> cases hs
    · refine ⟨⟨.delayed, ⟨⟨0, ⟨by simp [h1], h2, rfl⟩, quiet_ev he rfl rfl⟩, ?_, hone', ?_, D.off,
        fun n hn => (hsince n hn).elim⟩⟩, by simp⟩
      · intro q
        simp only [upd_apply]
        split
        · exact ht
        · rename_i e; rw [hidle q e]; trivial
      · show TsOk _ _ s.tstate
        rw [ht]; exact .inl rfl
    · have hoff := D.off
      refine ⟨⟨.starting s.nloop, ⟨⟨0, ⟨h1, by simp, by simp, ?_, rfl⟩, quiet_ev he rfl rfl⟩, ?_, hone', ?_, ?_,
        fun n hn => (hsince n hn).elim⟩⟩, by simp⟩
      · intro l hl; exact dead_upd hl rfl rfl rfl (h2 l)
      · intro q
        simp only [upd_apply]
        split
        · exact ht
        · rename_i e; rw [hidle q e]; trivial
      · show TsOk _ _ s.tstate
        rw [ht]; exact .inr (.inl ⟨_, rfl⟩)
      · intro l hl
        have : s.nloop + 1 ≤ l := hl
        show upd s.loop s.nloop LPc.make l = _
        rw [upd_of_ne _ _ (by omega)]; exact hoff l (by omega)
  | unlock e =>
    rw [hp] at hs hc
    dsimp only at hs
    cases hs
    exact ⟨⟨φ, disc_pc D (hone (by simp [hp])) rfl rfl rfl rfl rfl rfl rfl rfl rfl rfl (fun _ => rfl)
        (by simp [hp]) (by simp [hp]) trivial⟩, by simp⟩
  | scheck =>
    rw [hp] at hs hc
    dsimp only at hs
    split at hs
    · rename_i ht
      cases hs
      exact ⟨⟨φ, disc_pc D (hone (by simp [hp])) rfl rfl rfl rfl rfl rfl rfl rfl rfl rfl (fun _ => rfl)
        (by simp [hp]) (by simp [hp]) ⟨ht, hc ht⟩⟩, by simp⟩
    · cases hs
      exact ⟨⟨φ, disc_pc D (hone (by simp [hp])) rfl rfl rfl rfl rfl rfl rfl rfl rfl rfl (fun _ => rfl)
        (by simp [hp]) (by simp [hp]) trivial⟩, by simp⟩
  | sticker =>
    rw [hp] at hs hc
    dsimp only at hs
    obtain ⟨ht, L, K, rfl⟩ := hc
    obtain ⟨d, ⟨h1, h2, h3, h4, h5, h6, h7, rfl⟩, he⟩ := D.is
    rw [h5] at hs
    dsimp only at hs
    cases hs
    refine ⟨⟨.stopped L K, disc_client D (hone (by simp [hp])) rfl rfl rfl
      ⟨inHandler s L, ⟨h1, h2, h3, ?_, rfl, h6, by simp, rfl⟩, quiet_ev he rfl rfl⟩ ⟨ht, L, K, rfl⟩ ?_ ?_⟩, by simp⟩
    · intro l hl
      rcases h4 l hl with h8 | ⟨k, h8, h9, h10⟩
      · exact .inl h8
      · refine .inr ⟨k, h8, ?_, h10⟩
        have : k ≠ K := by intro e; subst e; rw [h9] at h7; cases h7
        show upd s.tk K _ k = _
        rw [upd_of_ne _ _ this, h9]
    · show TsOk _ _ s.tstate
      rw [ht]; exact .inr (.inr (.inr (.inr ⟨⟨L, K, rfl⟩, p, upd_same _ _ _⟩)))
    · intro n hn
      rw [List.append_nil] at hn
      obtain ⟨m, hm, _⟩ := D.since n hn
      cases hm
  | sset =>
    rw [hp] at hs hc
    dsimp only at hs
    obtain ⟨ht, L, K, rfl⟩ := hc
    obtain ⟨d, hd, he⟩ := D.is
    cases hs
    refine ⟨⟨.stopped L K, disc_client D (hone (by simp [hp])) rfl rfl rfl ⟨d, ?_, quiet_ev he rfl rfl⟩ trivial ?_ ?_⟩, by simp⟩
    · rw [is_congr (s := s)] <;> first | rfl | exact hd
    · exact .inr ⟨L, K, rfl⟩
    · intro n hn
      rw [since_append] at hn
      have hl : left s L K ≤ 2 := by unfold left; split <;> split <;> omega
      cases hx : sinceStop none h with
      | none =>
        rw [hx] at hn; cases hn
        exact ⟨left s L K, rfl, by omega⟩
      | some m =>
        rw [hx] at hn; cases hn
        obtain ⟨m', hm, h9⟩ := D.since _ hx
        exact ⟨m', hm, h9⟩

/-- A goroutine that makes a step was not dead. -/
theorem loop_alive {c : Cfg} {s s' : State} {evs : List Ev} {l : Nat} {bad skip : Bool}
    (hs : loopStep c s l bad skip = some (s', evs)) : ¬ Parked s l := by
  intro hd
  unfold loopStep at hs
  rcases hd with h | ⟨k, h, h1, _⟩ <;> rw [h] at hs
  · cases hs
  · simp [h1] at hs

/-- The callers when the phase goes on and the task was not still. -/
theorem cl_next {h : List Ev} {s s' : State} {φ φ' : Phase} (D : Disc h s φ) (hst : ¬ Still s)
    (h7 : s'.tstate = s.tstate) (hcl : s'.cl = s.cl)
    (h1 : (∃ L K, φ = .live L K) → ∃ L K, φ' = .live L K)
    (h2 : (∃ L K, φ = .stopped L K) → ∃ L K, φ' = .stopped L K)
    (h3 : φ ≠ .quiet) : ∀ p, ClOk s' φ' (s'.cl p) := by
  intro p
  have hc := D.cl p
  rw [hcl]
  cases hp : s.cl p <;> rw [hp] at hc <;> simp only [ClOk, h7] at hc ⊢
  · exact .inl (hc.resolve_right hst)
  · exact .inl (hc.resolve_right hst)
  · exact absurd hc.2 hst
  · exact absurd hc.2 h3
  · exact hc
  · exact fun ht => h1 (hc ht)
  · exact ⟨hc.1, h1 hc.2⟩
  · exact ⟨hc.1, h2 hc.2⟩

/-- A step of the goroutine in use, in phase `live` or `stopped`. -/
theorem disc_move {h : List Ev} {s s' : State} {evs : List Ev} {φ : Phase} {L K : Nat} {v : LPc}
    (D : Disc h s φ) (hφ : φ = .live L K ∨ φ = .stopped L K) (hal : ¬ Parked s L)
    (h1 : s'.loop = upd s.loop L v) (h2 : s'.nloop = s.nloop) (h3 : s'.ntk = s.ntk) (h4 : s'.ticker = s.ticker)
    (h5 : s'.delayed = s.delayed) (h7 : s'.tstate = s.tstate) (h8 : s'.cl = s.cl)
    (h9 : (s'.tk K).stopped = (s.tk K).stopped)
    (hv : v = .pre ∨ v = .run ∨ v = .post ∨ v = .read ∨ v = .recv K)
    (hdead : ∀ l, l ≠ L → Parked s l → Parked s' l)
    (he : begins evs + inHandler s L = ends evs + (if v = .run then 1 else 0))
    (hleft : ∀ x n, sinceStop x evs = some n → ∃ m, x = some m ∧ n + left s' L K ≤ m + left s L K) :
    Disc (h ++ evs) s' φ := by
  obtain ⟨d, hd, hb⟩ := D.is
  have hst : ¬ Still s := fun h => hal (h.2 L)
  have hu : Using s' L K := by simp only [Using, h1, upd_same]; exact hv
  have hin : inHandler s' L = if v = .run then 1 else 0 := by simp only [inHandler, h1, upd_same]
  have hln : L < s.nloop := by rcases hφ with rfl | rfl <;> exact hd.2.1
  refine ⟨⟨inHandler s' L, ?_, ?_⟩, ?_, ?_, ?_, ?_, ?_⟩
  · rcases hφ with rfl | rfl
    · exact ⟨h5 ▸ hd.1, h2 ▸ hln, hu, fun l hl => hdead l hl (hd.2.2.2.1 l hl), h4 ▸ hd.2.2.2.2.1,
        h3 ▸ hd.2.2.2.2.2.1, h9 ▸ hd.2.2.2.2.2.2.1, rfl⟩
    · exact ⟨h5 ▸ hd.1, h2 ▸ hln, hu, fun l hl => hdead l hl (hd.2.2.2.1 l hl), h4 ▸ hd.2.2.2.2.1,
        h3 ▸ hd.2.2.2.2.2.1, h9 ▸ hd.2.2.2.2.2.2.1, rfl⟩
  · have hdd : d = inHandler s L := by rcases hφ with rfl | rfl <;> exact hd.2.2.2.2.2.2.2
    rw [begins_append, ends_append, hin]; omega
  · refine cl_next D hst h7 h8 id id ?_
    rcases hφ with rfl | rfl <;> simp
  · rw [h8]; exact D.one
  · have := D.ts
    rw [h7]
    cases ht : s.tstate <;> rw [ht] at this <;> simp only [TsOk, h8] at this ⊢ <;> exact this
  · intro l hl
    rw [h2] at hl
    rw [h1, upd_of_ne _ _ (by omega)]; exact D.off l hl
  · intro n hn
    rw [since_append] at hn
    obtain ⟨m, hm, hle⟩ := hleft _ _ hn
    obtain ⟨m', hm', hle'⟩ := D.since _ hm
    rcases hφ with rfl | rfl
    · cases hm'
    · cases hm'
      exact ⟨left s' L K, rfl, by omega⟩

/-- Goroutines' steps. -/
theorem disc_loopStep {c : Cfg} {h : List Ev} {s s' : State} {evs : List Ev} {φ : Phase} {l : Nat} {bad skip : Bool}
    (D : Disc h s φ) (hs : loopStep c s l bad skip = some (s', evs)) (hpan : panics evs = 0) :
    ((∃ φ', Disc (h ++ evs) s' φ') ∨ (s'.crashed = true ∧ evs = [.crash l])) ∧ ∀ q, Ev.stopCrash q ∉ evs := by
  have hal := loop_alive hs
  obtain ⟨d, hd, he⟩ := D.is
  have key : (∃ L K, (φ = .live L K ∨ φ = .stopped L K) ∧ l = L ∧ Using s L K ∧ s.ticker = some K ∧ K < s.ntk ∧
      ∀ l, l ≠ L → Parked s l) ∨ (φ = .starting l) := by
    cases φ with
    | quiet => exact absurd (hd.2.1 l) hal
    | delayed => exact absurd (hd.2.1 l) hal
    | starting L =>
      by_cases e : l = L
      · subst e; exact .inr rfl
      · exact absurd (hd.2.2.2.1 l e) hal
    | live L K =>
      by_cases e : l = L
      · exact .inl ⟨L, K, .inl rfl, e, hd.2.2.1, hd.2.2.2.2.1, hd.2.2.2.2.2.1, hd.2.2.2.1⟩
      · exact absurd (hd.2.2.2.1 l e) hal
    | stopped L K =>
      by_cases e : l = L
      · exact .inl ⟨L, K, .inr rfl, e, hd.2.2.1, hd.2.2.2.2.1, hd.2.2.2.2.2.1, hd.2.2.2.1⟩
      · exact absurd (hd.2.2.2.1 l e) hal
  rcases key with ⟨L, K, hφ, rfl, hu, htk, hK, hdl⟩ | rfl
  · have same : ∀ {v : LPc} {s1 : State}, s1.loop = upd s.loop l v → s1.ntk = s.ntk → s1.tk = s.tk →
        ∀ l', l' ≠ l → Parked s l' → Parked s1 l' := fun a b c l' hl hd' => dead_upd hl a b c hd'
    unfold loopStep at hs
    rcases hu with hu | hu | hu | hu | hu <;> rw [hu] at hs <;> dsimp only at hs
    · -- pre
      split at hs
      · cases hs; simp [panics] at hpan
      · split at hs <;> cases hs
        · refine ⟨.inl ⟨φ, disc_move (v := .post) D hφ hal rfl rfl rfl rfl rfl rfl rfl rfl (by simp)
            (same rfl rfl rfl) (by simp [begins, ends, inHandler, hu]) ?_⟩, by simp⟩
          intro x n hx
          exact ⟨n, hx, by simp [left, hu]⟩
        · refine ⟨.inl ⟨φ, disc_move (v := .run) D hφ hal rfl rfl rfl rfl rfl rfl rfl rfl (by simp)
            (same rfl rfl rfl) (by simp [begins, ends, inHandler, hu]) ?_⟩, by simp⟩
          intro x n hx
          cases x with
          | none => cases hx
          | some m => cases hx; exact ⟨m, rfl, by simp [left, hu]; omega⟩
    · -- run
      split at hs <;> cases hs
      · simp [panics] at hpan
      · refine ⟨.inl ⟨φ, disc_move (v := .post) D hφ hal rfl rfl rfl rfl rfl rfl rfl rfl (by simp)
            (same rfl rfl rfl) (by simp [begins, ends, inHandler, hu]) ?_⟩, by simp⟩
        intro x n hx
        exact ⟨n, hx, by simp [left, hu]⟩
    · -- post
      split at hs <;> cases hs
      · simp [panics] at hpan
      · refine ⟨.inl ⟨φ, disc_move (v := .read) D hφ hal rfl rfl rfl rfl rfl rfl rfl rfl (by simp)
            (same rfl rfl rfl) (by simp [begins, ends, inHandler, hu]) ?_⟩, by simp⟩
        intro x n hx
        exact ⟨n, hx, by simp [left, hu]⟩
    · -- read
      split at hs
      · cases hs
      · rename_i k hk
        cases hs
        have : k = K := by rw [htk] at hk; cases hk; rfl
        subst this
        refine ⟨.inl ⟨φ, disc_move (v := .recv k) D hφ hal rfl rfl rfl rfl rfl rfl rfl rfl (by simp)
            (same rfl rfl rfl) (by simp [begins, ends, inHandler, hu]) ?_⟩, by simp⟩
        intro x n hx
        exact ⟨n, hx, by simp [left, hu]⟩
    · -- recv
      split at hs
      · rename_i hf
        cases hs
        refine ⟨.inl ⟨φ, disc_move (v := .pre) D hφ hal rfl rfl rfl rfl rfl rfl rfl (by simp) (by simp)
            ?_ (by simp [begins, ends, inHandler, hu]) ?_⟩, by simp⟩
        · intro l' hl hd'
          rcases hd' with h8 | ⟨k, h8, h9, h10⟩
          · exact .inl (by show upd s.loop l LPc.pre l' = _; rw [upd_of_ne _ _ hl, h8])
          · refine .inr ⟨k, by show upd s.loop l LPc.pre l' = _; rw [upd_of_ne _ _ hl, h8], ?_, h10⟩
            have : k ≠ K := by intro e; subst e; rw [h9] at hf; cases hf
            show upd s.tk K _ k = _
            rw [upd_of_ne _ _ this, h9]
        · intro x n hx
          exact ⟨n, hx, by simp [left, hu, hf]⟩
      · cases hs
  · -- starting
    obtain ⟨h1, h2, h3, h4, rfl⟩ := hd
    have hst : ¬ Still s := fun h => hal (h.2 l)
    unfold loopStep at hs
    rw [h3] at hs
    dsimp only at hs
    split at hs <;> cases hs
    · refine ⟨.inl ⟨.live l s.ntk, ⟨⟨0, ⟨h1, h2, .inl (upd_same _ _ _), ?_, rfl, Nat.lt_succ_self _, ?_, ?_⟩,
        quiet_ev he rfl rfl⟩, ?_, D.one, ?_, ?_, ?_⟩⟩, by simp⟩
      · intro l' hl
        rcases h4 l' hl with h8 | ⟨k, h8, h9, h10⟩
        · exact .inl (by show upd s.loop l LPc.pre l' = _; rw [upd_of_ne _ _ hl, h8])
        · refine .inr ⟨k, by show upd s.loop l LPc.pre l' = _; rw [upd_of_ne _ _ hl, h8], ?_, Nat.lt_succ_of_lt h10⟩
          show upd s.tk s.ntk _ k = _
          rw [upd_of_ne _ _ (by omega), h9]
      · simp
      · simp [inHandler]
      · exact cl_next D hst rfl rfl (by simp) (by simp) (by simp)
      · show TsOk _ _ s.tstate
        have := D.ts
        cases ht : s.tstate <;> rw [ht] at this
        · cases this
        · exact .inr (.inr (.inl ⟨_, _, rfl⟩))
        · rcases this with h | ⟨_, _, h⟩ <;> cases h
      · intro l' hl
        show upd s.loop l LPc.pre l' = _
        have : s.nloop ≤ l' := hl
        rw [upd_of_ne _ _ (by omega)]; exact D.off l' hl
      · intro n hn
        rw [List.append_nil] at hn
        obtain ⟨m, hm, _⟩ := D.since n hn
        cases hm
    · exact ⟨.inr ⟨rfl, rfl⟩, by simp⟩

/-- A ticker fires. -/
theorem disc_fire {h : List Ev} {s : State} {φ : Phase} {k : Nat} (D : Disc h s φ)
    (hk : (s.tk k).stopped = false) :
    Disc (h ++ []) { s with tk := upd s.tk k { s.tk k with full := true } } φ := by
  obtain ⟨d, hd, he⟩ := D.is
  have dead : ∀ l, Parked s l → Parked { s with tk := upd s.tk k { s.tk k with full := true } } l := by
    intro l hl
    rcases hl with h8 | ⟨k', h8, h9, h10⟩
    · exact .inl h8
    · refine .inr ⟨k', h8, ?_, h10⟩
      have : k' ≠ k := by intro e; subst e; rw [h9] at hk; cases hk
      show upd s.tk k _ k' = _
      rw [upd_of_ne _ _ this, h9]
  rw [List.append_nil]
  refine ⟨⟨d, ?_, he⟩, ?_, D.one, D.ts, D.off, ?_⟩
  · cases φ with
    | quiet => exact ⟨hd.1, fun l => dead l (hd.2.1 l), hd.2.2⟩
    | delayed => exact ⟨hd.1, fun l => dead l (hd.2.1 l), hd.2.2⟩
    | starting L => exact ⟨hd.1, hd.2.1, hd.2.2.1, fun l hl => dead l (hd.2.2.2.1 l hl), hd.2.2.2.2⟩
    | live L K =>
      obtain ⟨h1, h2, h3, h4, h5, h6, h7, h8⟩ := hd
      refine ⟨h1, h2, h3, fun l hl => dead l (h4 l hl), h5, h6, ?_, h8⟩
      show (upd s.tk k _ K).stopped = _
      rw [upd_apply]; split
      · exact hk
      · exact h7
    | stopped L K =>
      obtain ⟨h1, h2, h3, h4, h5, h6, h7, h8⟩ := hd
      refine ⟨h1, h2, h3, fun l hl => dead l (h4 l hl), h5, h6, ?_, h8⟩
      show (upd s.tk k _ K).stopped = _
      rw [upd_of_ne]
      · exact h7
      · intro e; subst e; rw [hk] at h7; cases h7
  · intro p
    have hc := D.cl p
    have hst : Still s → Still { s with tk := upd s.tk k { s.tk k with full := true } } :=
      fun h => ⟨h.1, fun l => dead l (h.2 l)⟩
    show ClOk _ _ (s.cl p)
    cases hp : s.cl p <;> rw [hp] at hc
    case lock => exact hc.imp id hst
    case check => exact hc.imp id hst
    case set => exact ⟨hc.1, hst hc.2⟩
    all_goals exact hc
  · intro n hn
    obtain ⟨m, hm, hle⟩ := D.since n hn
    cases φ with
    | stopped L K =>
      obtain ⟨h1, h2, h3, h4, h5, h6, h7, h8⟩ := hd
      refine ⟨m, ?_, hle⟩
      rw [← hm]
      have hne : K ≠ k := by intro e; subst e; rw [hk] at h7; cases h7
      simp [leftIn, left, upd_of_ne _ _ hne]
    | _ => exact ⟨m, hm, hle⟩

/-- A delay ends. -/
theorem disc_due {h : List Ev} {s : State} {φ : Phase} (D : Disc h s φ) (hk : s.delayed ≠ 0) :
    Disc (h ++ []) { s with delayed := s.delayed - 1, loop := upd s.loop s.nloop .make, nloop := s.nloop + 1 }
      (.starting s.nloop) := by
  obtain ⟨d, hd, he⟩ := D.is
  have hφ : φ = .delayed := by
    cases φ with
    | delayed => rfl
    | _ => exact absurd hd.1 hk
  subst hφ
  obtain ⟨h1, h2, rfl⟩ := hd
  rw [List.append_nil]
  have hst : ¬ Still s := fun h => hk h.1
  refine ⟨⟨0, ⟨by simp [h1], by simp, upd_same _ _ _, fun l hl => dead_upd hl rfl rfl rfl (h2 l), rfl⟩, he⟩, ?_, D.one,
    ?_, ?_, ?_⟩
  · exact cl_next D hst rfl rfl (by simp) (by simp) (by simp)
  · show TsOk _ _ s.tstate
    have := D.ts
    cases ht : s.tstate <;> rw [ht] at this
    · cases this
    · exact .inr (.inl ⟨_, rfl⟩)
    · rcases this with h | ⟨_, _, h⟩ <;> cases h
  · intro l hl
    have : s.nloop + 1 ≤ l := hl
    show upd s.loop s.nloop LPc.make l = _
    rw [upd_of_ne _ _ (by omega)]; exact D.off l (by omega)
  · intro n hn
    obtain ⟨m, hm, _⟩ := D.since n hn
    cases hm

theorem mem_ends {α : Type} {a b : List α} {x : α} (h1 : x ∉ a) (h2 : x ∉ b) : x ∉ a ++ b := by
  simp [h1, h2]

theorem disc_neutral {h evs : List Ev} {s : State} {φ : Phase} (D : Disc h s φ) (e1 : begins evs = 0)
    (e2 : ends evs = 0) (e3 : ∀ x, sinceStop x evs = x) : Disc (h ++ evs) s φ := by
  obtain ⟨d, hd, he⟩ := D.is
  refine ⟨⟨d, hd, quiet_ev he e1 e2⟩, D.cl, D.one, D.ts, D.off, ?_⟩
  intro n hn
  rw [since_append, e3] at hn
  exact D.since n hn

/-- A call that may begin: the task runs and its goroutine has a ticker, or no start was effective. -/
theorem live_of {h : List Ev} {s : State} {φ : Phase} (D : Disc h s φ) (hi : ∀ q, s.cl q = .idle)
    (ht : s.tstate = .run) (h1 : s.delayed = 0) (h2 : ∀ l, s.loop l ≠ .make) : ∃ L K, φ = .live L K := by
  have hts := D.ts
  obtain ⟨d, hd, _⟩ := D.is
  rw [ht] at hts
  rcases hts with rfl | ⟨L, rfl⟩ | h | ⟨_, q, hq⟩ | ⟨_, q, hq⟩
  · have := hd.1; omega
  · exact absurd hd.2.2.1 (h2 L)
  · exact h
  · rw [hi] at hq; cases hq
  · rw [hi] at hq; cases hq

/-- **Every step of a disciplined execution without panics.** -/
theorem disc_step {c : Cfg} {h : List Ev} {s s' : State} {evs : List Ev} {φ : Phase} {a : Act}
    (D : Disc h s φ) (ha : Allowed s a) (hs : step c s a = some (s', evs)) (hpan : panics evs = 0) :
    ((∃ φ', Disc (h ++ evs) s' φ') ∨ (s'.crashed = true ∧ ∃ l, evs = [.crash l])) ∧ ∀ q, Ev.stopCrash q ∉ evs := by
  unfold step at hs
  split at hs
  · cases hs
  cases a with
  | callStart p =>
    dsimp only at hs
    split at hs
    · rename_i hp
      obtain ⟨hi, hr⟩ := ha
      split at hs <;> cases hs
      · refine ⟨.inl ⟨φ, disc_pc D (v := .lock) (fun q hq => absurd (hi q) hq) rfl rfl rfl rfl rfl rfl rfl rfl rfl rfl
          (fun _ => rfl) (by simp [hp]) (by simp [hp]) (hr.imp id (rest_still D))⟩, by simp⟩
      · exact ⟨.inl ⟨φ, disc_neutral D rfl rfl (fun _ => rfl)⟩, by simp⟩
    · cases hs
  | callStop p =>
    dsimp only at hs
    split at hs
    · rename_i hp
      obtain ⟨hi, hr⟩ := ha
      split at hs <;> cases hs
      · refine ⟨.inl ⟨φ, disc_pc D (v := .scheck) (fun q hq => absurd (hi q) hq) rfl rfl rfl rfl rfl rfl rfl rfl rfl rfl
          (fun _ => rfl) (by simp [hp]) (by simp [hp]) (fun ht => live_of D hi ht (hr ht).1 (hr ht).2)⟩, by simp⟩
      · exact ⟨.inl ⟨φ, disc_neutral D rfl rfl (fun _ => rfl)⟩, by simp⟩
    · cases hs
  | client p =>
    obtain ⟨h1, h2⟩ := disc_clientStep D hs
    exact ⟨.inl h1, h2⟩
  | due =>
    dsimp only at hs
    split at hs
    · cases hs
    · rename_i hk
      cases hs
      exact ⟨.inl ⟨_, disc_due D hk⟩, by simp⟩
  | fire k =>
    dsimp only at hs
    split at hs
    · rename_i hk
      cases hs
      exact ⟨.inl ⟨_, disc_fire D hk.2⟩, by simp⟩
    · cases hs
  | loop l bad skip =>
    obtain ⟨h1, h2⟩ := disc_loopStep D hs hpan
    exact ⟨h1.imp id (fun ⟨a, b⟩ => ⟨a, l, b⟩), h2⟩

theorem disc_init : Disc [] init .quiet := by
  refine ⟨⟨0, ⟨rfl, fun _ => .inl rfl, rfl⟩, rfl⟩, fun _ => trivial, ?_, rfl, fun _ _ => rfl, ?_⟩
  · intro p q hp; simp [init] at hp
  · intro n hn; cases hn

theorem step_crashed {c : Cfg} {s : State} (h : s.crashed = true) (a : Act) : step c s a = none := by
  simp [step, h]

/-- Disciplined executions without panics. -/
theorem discRun_good {c : Cfg} {h : List Ev} {s : State} (hr : DiscRun c h s) :
    panics h = 0 → Good h ∧ ((∃ φ, Disc h s φ) ∨ s.crashed = true) := by
  induction hr with
  | init => exact fun _ => ⟨⟨by simp [begins], by simp [sinceStop], by simp⟩, .inl ⟨_, disc_init⟩⟩
  | step hr ha hs ih =>
    rename_i h s a s' evs
    intro hpan
    rw [panics_append] at hpan
    obtain ⟨g, hx⟩ := ih (by omega)
    rcases hx with ⟨φ, D⟩ | hc
    · obtain ⟨h1, h2⟩ := disc_step D ha hs (by omega)
      rcases h1 with ⟨φ', D'⟩ | ⟨hc, l, rfl⟩
      · exact ⟨⟨D'.bound.1, D'.bound.2, fun p => mem_ends (g.2.2 p) (h2 p)⟩, .inl ⟨φ', D'⟩⟩
      · refine ⟨⟨?_, ?_, fun p => mem_ends (g.2.2 p) (h2 p)⟩, .inr hc⟩
        · have := g.1
          rw [begins_append, ends_append]; simp [begins, ends] at *; omega
        · intro n hn
          rw [since_append] at hn
          exact g.2.1 n hn
    · rw [step_crashed hc] at hs; cases hs

/-- Disciplined executions are executions. -/
theorem discRun_run {c : Cfg} {h : List Ev} {s : State} (hr : DiscRun c h s) : (sys c).Run h s := by
  induction hr with
  | init => exact Lts.Run.init
  | step _ _ hs ih => exact Lts.Run.step ih hs

/-- Everything but calls may happen at any time. -/
theorem discRun_exec {c : Cfg} {as : List Act} :
    ∀ {h : List Ev} {s s' : State} {evs : List Ev}, DiscRun c h s → (∀ a ∈ as, ∀ s, Allowed s a) →
      (sys c).exec s as = some (s', evs) → DiscRun c (h ++ evs) s' := by
  induction as with
  | nil => intro h s s' evs hr _ he; cases he; simpa using hr
  | cons a as ih =>
    intro h s s' evs hr ha he
    cases hs : (sys c).step s a with
    | none => simp [Lts.exec, hs] at he
    | some r =>
      obtain ⟨s1, e1⟩ := r
      cases he2 : (sys c).exec s1 as with
      | none => simp [Lts.exec, hs, he2] at he
      | some r2 =>
        obtain ⟨s2, e2⟩ := r2
        simp [Lts.exec, hs, he2] at he
        obtain ⟨rfl, rfl⟩ := he
        rw [← List.append_assoc]
        exact ih (DiscRun.step hr (ha a (by simp) s) hs) (fun a h => ha a (by simp [h])) he2

/-- `sinceStop` counts what begins after an effective stop. -/
theorem since_some {h : List Ev} (hs : starts h = 0) (m : Nat) :
    sinceStop (some m) h = some (m + begins h) := by
  induction h generalizing m with
  | nil => rfl
  | cons e h ih =>
    cases e with
    | started p => simp [starts] at hs
    | stopRet p b =>
      have hs' : starts h = 0 := by simpa [starts] using hs
      cases b <;> simp [sinceStop, ih hs', begins]
    | hstart l =>
      have hs' : starts h = 0 := by simpa [starts] using hs
      simp [sinceStop, ih hs', begins]; omega
    | _ =>
      have hs' : starts h = 0 := by simpa [starts] using hs
      simp [sinceStop, ih hs', begins]

theorem since_stop {h1 h2 : List Ev} {p : Nat} (hs : starts h2 = 0) :
    ∃ m, sinceStop none (h1 ++ Ev.stopRet p true :: h2) = some (m + begins h2) := by
  rw [since_append]
  cases sinceStop none h1 with
  | none => exact ⟨0, by simp only [sinceStop]; exact since_some hs 0⟩
  | some m => exact ⟨m, by simp only [sinceStop]; exact since_some hs m⟩

/-- Steps that the goroutine in use can still make with a stopped ticker. -/
def rank (s : State) (L K : Nat) : Nat :=
  (match s.loop L with | .pre => 4 | .run => 3 | .post => 2 | .read => 1 | _ => 0) +
    if (s.tk K).full then 5 else 0

theorem rank_le (s : State) (L K : Nat) : rank s L K ≤ 9 := by
  unfold rank; cases s.loop L <;> simp only <;> split <;> omega

/-- A step of a stopped task without a call. -/
theorem rank_step {c : Cfg} {h : List Ev} {s s' : State} {evs : List Ev} {L K l : Nat} {skip : Bool}
    (D : Disc h s (.stopped L K)) (hs : step c s (.loop l false skip) = some (s', evs)) :
    Disc (h ++ evs) s' (.stopped L K) ∧ rank s' L K < rank s L K := by
  have hcr : s.crashed = false := by
    cases h : s.crashed
    · rfl
    · rw [step_crashed h] at hs; cases hs
  simp only [step, hcr, Bool.false_eq_true, if_false] at hs
  have hal := loop_alive hs
  obtain ⟨d, hd, he⟩ := D.is
  obtain ⟨h1, h2, h3, h4, h5, h6, h7, h8⟩ := hd
  have e : l = L := by
    by_cases e : l = L
    · exact e
    · exact absurd (h4 l e) hal
  subst e
  have same : ∀ {v : LPc} {s1 : State}, s1.loop = upd s.loop l v → s1.ntk = s.ntk → s1.tk = s.tk →
        ∀ l', l' ≠ l → Parked s l' → Parked s1 l' := fun a b c l' hl hd' => dead_upd hl a b c hd'
  unfold loopStep at hs
  rcases h3 with hu | hu | hu | hu | hu <;> rw [hu] at hs <;> dsimp only at hs
  · rw [if_neg (by simp)] at hs
    split at hs <;> cases hs
    · refine ⟨disc_move (v := .post) D (.inr rfl) hal rfl rfl rfl rfl rfl rfl rfl rfl (by simp)
        (same rfl rfl rfl) (by simp [begins, ends, inHandler, hu]) ?_, by simp [rank, hu]⟩
      intro x n hx
      exact ⟨n, hx, by simp [left, hu]⟩
    · refine ⟨disc_move (v := .run) D (.inr rfl) hal rfl rfl rfl rfl rfl rfl rfl rfl (by simp)
        (same rfl rfl rfl) (by simp [begins, ends, inHandler, hu]) ?_, by simp [rank, hu]⟩
      intro x n hx
      cases x with
      | none => cases hx
      | some m => cases hx; exact ⟨m, rfl, by simp [left, hu]; omega⟩
  · rw [if_neg (by simp)] at hs
    cases hs
    refine ⟨disc_move (v := .post) D (.inr rfl) hal rfl rfl rfl rfl rfl rfl rfl rfl (by simp)
        (same rfl rfl rfl) (by simp [begins, ends, inHandler, hu]) ?_, by simp [rank, hu]⟩
    intro x n hx
    exact ⟨n, hx, by simp [left, hu]⟩
  · rw [if_neg (by simp)] at hs
    cases hs
    refine ⟨disc_move (v := .read) D (.inr rfl) hal rfl rfl rfl rfl rfl rfl rfl rfl (by simp)
        (same rfl rfl rfl) (by simp [begins, ends, inHandler, hu]) ?_, by simp [rank, hu]⟩
    intro x n hx
    exact ⟨n, hx, by simp [left, hu]⟩
  · rw [h5] at hs
    cases hs
    refine ⟨disc_move (v := .recv K) D (.inr rfl) hal rfl rfl rfl h5.symm rfl rfl rfl rfl (by simp)
        (same rfl rfl rfl) (by simp [begins, ends, inHandler, hu]) ?_, by simp [rank, hu]⟩
    intro x n hx
    exact ⟨n, hx, by simp [left, hu]⟩
  · split at hs
    · rename_i hf
      cases hs
      refine ⟨disc_move (v := .pre) D (.inr rfl) hal rfl rfl rfl rfl rfl rfl rfl (by simp) (by simp)
          ?_ (by simp [begins, ends, inHandler, hu]) ?_, by simp [rank, hu, hf]⟩
      · intro l' hl hd'
        rcases hd' with h8 | ⟨k, h8, h9, h10⟩
        · exact .inl (by show upd s.loop l LPc.pre l' = _; rw [upd_of_ne _ _ hl, h8])
        · refine .inr ⟨k, by show upd s.loop l LPc.pre l' = _; rw [upd_of_ne _ _ hl, h8], ?_, h10⟩
          have : k ≠ K := by intro e; subst e; rw [h9] at hf; cases hf
          show upd s.tk K _ k = _
          rw [upd_of_ne _ _ this, h9]
      · intro x n hx
        exact ⟨n, hx, by simp [left, hu, hf]⟩
    · cases hs

/-- A stopped task can make few steps of its own. -/
theorem rank_exec {c : Cfg} {L K : Nat} {as : List Act} :
    ∀ {h : List Ev} {s s' : State} {evs : List Ev}, Disc h s (.stopped L K) →
      (∀ a ∈ as, ∃ l skip, a = .loop l false skip) → (sys c).exec s as = some (s', evs) →
      as.length ≤ rank s L K := by
  induction as with
  | nil => intros; simp
  | cons a as ih =>
    intro h s s' evs D ha he
    obtain ⟨l, skip, rfl⟩ := ha a (by simp)
    cases hs : (sys c).step s (.loop l false skip) with
    | none => simp [Lts.exec, hs] at he
    | some r =>
      obtain ⟨s1, e1⟩ := r
      obtain ⟨D1, hlt⟩ := rank_step D hs
      cases he2 : (sys c).exec s1 as with
      | none => simp [Lts.exec, hs, he2] at he
      | some r2 =>
        obtain ⟨s2, e2⟩ := r2
        have := ih D1 (fun a h => ha a (by simp [h])) he2
        simp; omega

theorem quiet_exec {c : Cfg} {as : List Act} {s s' : State} {evs : List Ev} (hq : ∀ l, Parked s l)
    (ha : ∀ a ∈ as, ∃ l skip, a = Act.loop l false skip) (he : (sys c).exec s as = some (s', evs)) : as = [] := by
  cases as with
  | nil => rfl
  | cons a as =>
    obtain ⟨l, skip, rfl⟩ := ha a (by simp)
    cases hs : (sys c).step s (.loop l false skip) with
    | none => simp [Lts.exec, hs] at he
    | some r =>
      obtain ⟨s1, e1⟩ := r
      have hs' : step c s (.loop l false skip) = some (s1, e1) := hs
      have hcr : s.crashed = false := by
        cases h : s.crashed
        · rfl
        · rw [step_crashed h] at hs'; cases hs'
      simp only [step, hcr, Bool.false_eq_true, if_false] at hs'
      exact absurd (hq l) (loop_alive hs')

end Braid.TickTask
