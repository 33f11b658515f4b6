import Verif.Grpc.CloseInv

/-
C139: closing a connection is answered, and leaves no goroutine behind. See `Close.lean`.
-/
namespace Braid.Grpc.Close

/-- The goroutine of call `g` was started and has not ended. -/
def Left (h : List Ev) (g : Nat) : Prop := .started g ∈ h ∧ .ended g ∉ h

/-- A call is answered at most once; with the result of `conn.Close` only after it returned that result, and with a
timeout only after the three seconds. -/
theorem C139_result {h1 h2 : List Ev} {s : State} {g : Nat} {r : Res} (hr : sys.Run (h1 ++ .answered g r :: h2) s) :
    answers g h1 = [] ∧ answers g h2 = [] ∧
      ((r = .timedOut ∧ .expired g ∈ h1) ∨ ∃ e, r = .closed e ∧ .closed g e ∈ h1) := by
  have hone : answers g h1 = [] ∧ answers g h2 = [] := by
    have hi := inv hr g
    have hm : r ∈ answers g (h1 ++ .answered g r :: h2) := mem_answers.2 (by simp)
    have hsp : answers g (h1 ++ .answered g r :: h2) = answers g h1 ++ r :: answers g h2 := by
      simp [answers]
    cases hs : s.main g with
    | idle => rw [hi.open_ (.inl hs)] at hm; cases hm
    | waiting => rw [hi.open_ (.inr hs)] at hm; cases hm
    | answered r' =>
      rw [hi.shut r' hs] at hsp
      have hl := congrArg List.length hsp
      simp only [List.length_append, List.length_cons, List.length_nil] at hl
      exact ⟨List.length_eq_zero_iff.1 (by omega), List.length_eq_zero_iff.1 (by omega)⟩
  refine ⟨hone.1, hone.2, ?_⟩
  obtain ⟨h0, s0, a, s1, pre, post, as, rest, r0, st, e1, -, -⟩ := hr.split_at rfl
  have hi := inv r0 g
  cases a with
  | start g' =>
    simp only [sys, step] at st
    split at st <;> simp at st
    have h1 := st.2
    cases pre <;> simp at h1
  | close g' e =>
    simp only [sys, step] at st
    split at st <;> simp at st
    have h1 := st.2
    cases pre <;> simp at h1
  | expire g' =>
    simp only [sys, step] at st
    split at st <;> simp at st
    have h1 := st.2
    cases pre <;> simp at h1
  | timeout g' =>
    simp only [sys, step] at st
    split at st <;> simp at st
    rename_i hc
    have h2 := st.2
    cases pre <;> simp at h2
    obtain ⟨⟨rfl, rfl⟩, -⟩ := h2
    left
    refine ⟨rfl, ?_⟩
    rw [e1, List.append_nil]
    exact hi.expired.2 hc.2
  | receive g' =>
    simp only [sys, step] at st
    split at st <;> simp at st
    rename_i e hm hw
    have h2 := st.2
    rcases pre with _ | ⟨x, _ | ⟨y, pre⟩⟩ <;> simp at h2
    obtain ⟨⟨rfl, rfl⟩, -⟩ := h2
    right
    refine ⟨e, rfl, ?_⟩
    rw [e1, List.append_nil]
    exact hi.sending e hw

/-- A call that was started can be answered at once when its time is over, and when `conn.Close` has returned. -/
theorem C139_answered {h : List Ev} {s : State} (hr : sys.Run h s) {g : Nat} (hs : .started g ∈ h)
    (hn : ∀ r, .answered g r ∉ h) (hx : .expired g ∈ h ∨ ∃ e, .closed g e ∈ h) :
    ∃ a s' evs r, sys.step s a = some (s', evs) ∧ .answered g r ∈ evs := by
  have hi := inv hr g
  have hw : s.main g = .waiting := by
    cases hm : s.main g with
    | idle => exact absurd hm (hi.started.1 hs)
    | waiting => rfl
    | answered r => exact absurd (mem_answers.1 (by rw [hi.shut r hm]; simp)) (hn r)
  rcases hx with hx | ⟨e, he⟩
  · have := hi.expired.1 hx
    exact ⟨.timeout g, _, _, .timedOut, by simp only [sys, step, hw, this, and_self, if_true]; rfl, by simp⟩
  · rcases hi.closed e he with h1 | h1
    · exact ⟨.receive g, _, _, .closed e, by simp only [sys, step, hw, h1]; rfl, by simp⟩
    · obtain ⟨e', h2⟩ := hi.ended_main.1 h1
      rw [hw] at h2
      cases h2

/-- The goroutine of a call has ended exactly if the call was answered with the result of `conn.Close`. -/
theorem C139_left_exact {h : List Ev} {s : State} (hr : sys.Run h s) (g : Nat) :
    Left h g ↔ .started g ∈ h ∧ ¬ ∃ e, .answered g (.closed e) ∈ h := by
  have hi := inv hr g
  refine and_congr_right fun _ => not_congr ?_
  rw [hi.ended, hi.ended_main]
  constructor
  · rintro ⟨e, he⟩
    exact ⟨e, mem_answers.1 (by rw [hi.shut _ he]; simp)⟩
  · rintro ⟨e, he⟩
    have h1 := mem_answers.2 he
    cases hm : s.main g with
    | idle => rw [hi.open_ (.inl hm)] at h1; cases h1
    | waiting => rw [hi.open_ (.inr hm)] at h1; cases h1
    | answered r =>
      rw [hi.shut r hm] at h1
      exact ⟨e, by rw [List.mem_singleton.1 h1]⟩

/-- The goroutine of a call that was answered with a timeout never ends, whatever happens later. -/
theorem C139_left_forever {h : List Ev} {s : State} (hr : sys.Run h s) {g : Nat} (ha : .answered g .timedOut ∈ h)
    {as : List Act} {s' : State} {es : List Ev} (he : sys.exec s as = some (s', es)) : Left (h ++ es) g := by
  have hr' := hr.exec he
  have hi := inv hr' g
  have ha' := mem_answers.2 (List.mem_append_left es ha)
  cases hm : s'.main g with
  | idle => rw [hi.open_ (.inl hm)] at ha'; cases ha'
  | waiting => rw [hi.open_ (.inr hm)] at ha'; cases ha'
  | answered r =>
    have hr1 := hi.shut r hm
    rw [hr1] at ha'
    have : Res.timedOut = r := List.mem_singleton.1 ha'
    subst this
    refine ⟨hi.started.2 (by rw [hm]; simp), fun hend => ?_⟩
    obtain ⟨e, h2⟩ := hi.ended_main.1 (hi.ended.1 hend)
    rw [hm] at h2
    cases h2

/-- Nothing is left behind: the goroutine of a call that was answered can still end once `conn.Close` has returned. -/
def Clean : Prop :=
  ∀ (h : List Ev) (s : State) (g : Nat) (r : Res) (e : Bool), sys.Run h s → .answered g r ∈ h → .closed g e ∈ h →
    ∃ as s' es, sys.exec s as = some (s', es) ∧ .ended g ∈ h ++ es

/-- A call that `conn.Close` answers leaves nothing behind. -/
theorem C139_clean_partial {h : List Ev} {s : State} (hr : sys.Run h s) {g : Nat} {e : Bool}
    (ha : .answered g (.closed e) ∈ h) : .ended g ∈ h := by
  have hi := inv hr g
  have h1 := mem_answers.2 ha
  cases hm : s.main g with
  | idle => rw [hi.open_ (.inl hm)] at h1; cases h1
  | waiting => rw [hi.open_ (.inr hm)] at h1; cases h1
  | answered r =>
    rw [hi.shut r hm] at h1
    have : Res.closed e = r := List.mem_singleton.1 h1
    subst this
    exact hi.ended.2 (hi.ended_main.2 ⟨e, hm⟩)

/-- Any number of goroutines can be left behind for ever, after `conn.Close` has returned in each of them. -/
theorem C139_unbounded_refuted (n : Nat) :
    ∃ h s, sys.Run h s ∧ ∀ g, g < n → .closed g false ∈ h ∧
      ∀ as s' es, sys.exec s as = some (s', es) → Left (h ++ es) g := by
  have key : ∃ h s, sys.Run h s ∧ (∀ g, g < n → .closed g false ∈ h ∧ .answered g .timedOut ∈ h) ∧
      ∀ g, n ≤ g → s.main g = .idle := by
    induction n with
    | zero => exact ⟨[], init, .init, by simp, fun _ _ => rfl⟩
    | succ n ih =>
      obtain ⟨h, s, hr, h1, h2⟩ := ih
      obtain ⟨s', he, hk⟩ := late_step hr (h2 n (Nat.le_refl n))
      refine ⟨_, s', hr.exec he, ?_, ?_⟩
      · intro g hg
        by_cases hgn : g = n
        · subst hgn
          simp
        · have := h1 g (by omega)
          simp [this]
      · intro g hg
        rw [hk g (by omega)]
        exact h2 g (by omega)
  obtain ⟨h, s, hr, h1, -⟩ := key
  exact ⟨h, s, hr, fun g hg => ⟨(h1 g hg).1, fun as s' es he => C139_left_forever hr (h1 g hg).2 he⟩⟩

/-- After a timeout nobody receives from `doneCh`: the goroutine is stuck at L85 although the connection is closed. -/
theorem C139_refuted : ¬ Clean := by
  intro hc
  obtain ⟨as, s', es, he, hend⟩ := hc _ _ 0 .timedOut false
    (Lts.run_of_exec (M := sys) (as := lateOne 0) rfl) (by decide) (by decide)
  have := C139_left_forever (Lts.run_of_exec (M := sys) (as := lateOne 0) rfl) (g := 0) (by decide) he
  exact this.2 hend

/-- A call that is answered by `conn.Close` while another one times out. -/
example : ∃ s, sys.Run [.started 0, .started 1, .closed 1 true, .expired 0, .answered 1 (.closed true), .ended 1,
    .answered 0 .timedOut] s :=
  ⟨_, Lts.run_of_exec (M := sys)
    (as := [.start 0, .start 1, .close 1 true, .expire 0, .receive 1, .timeout 0]) rfl⟩

/-- When both cases are ready either is possible. -/
example : (∃ s, sys.Run [.started 0, .closed 0 false, .expired 0, .answered 0 .timedOut] s) ∧
    ∃ s, sys.Run [.started 0, .closed 0 false, .expired 0, .answered 0 (.closed false), .ended 0] s :=
  ⟨⟨_, Lts.run_of_exec (M := sys) (as := [.start 0, .close 0 false, .expire 0, .timeout 0]) rfl⟩,
    ⟨_, Lts.run_of_exec (M := sys) (as := [.start 0, .close 0 false, .expire 0, .receive 0]) rfl⟩⟩

end Braid.Grpc.Close
