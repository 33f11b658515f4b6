import Verif.Reporter.Inv

/-
C59: the span reporter accounts for every span.
-/
namespace Braid.Reporter
open Spec

variable {f : Nat → Bool}

/-- C59, accounting, in every interleaving: the spans that were reported and not dropped are those that were handled,
in order, followed by those that are in the hands of the worker or in the queue, in order; the counter of dropped
spans is right. -/
theorem C59_accounts {h : List Ev} {s : State} (hr : (sys (some f)).Run h s) :
    (∃ rest, queued h = handled h ++ rest ∧ rest = inHand s ++ s.queue.filterMap itemSpan) ∧
      s.dropped = (dropped h).length :=
  ⟨⟨_, (invA_run hr).acc, rfl⟩, (invA_run hr).drop⟩

/-- C59, delivery: what was delivered is what was handled and sampled, in the order of the reports. -/
theorem C59_delivery {h : List Ev} {s : State} (hr : (sys (some f)).Run h s) :
    delivered h <+: (queued h).filter f ∧ delivered h = (handled h).filter f := by
  have hi := invA_run hr
  refine ⟨?_, hi.deliv⟩
  rw [hi.deliv, hi.acc, List.filter_append]
  exact List.prefix_append _ _

/-- C59: a span is dropped only if 100 items are waiting. -/
theorem C59_drop_only_full {s s' : State} {evs : List Ev} {a : Act} {x : Nat}
    (hs : step (some f) s a = some (s', evs)) (he : .reported x false ∈ evs) : 100 ≤ s.queue.length := by
  simp only [step] at hs
  repeat' split at hs
  all_goals try cases hs
  all_goals try simp at he
  · rename_i h; unfold queueSize at h; omega

theorem first_unique {p p' q t : List Ev} {w w' : Nat} (hp : ∀ g, .close g ∉ p) (hp' : ∀ g, .close g ∉ p')
    (he : p' ++ .close w' :: t = p ++ .close w :: q) : p' = p ∧ w' = w ∧ t = q := by
  rcases List.append_eq_append_iff.1 he with ⟨a, h1, h2⟩ | ⟨a, h1, h2⟩
  · cases a with
    | nil => simp only [List.append_nil] at h1; cases h2; exact ⟨h1.symm, rfl, rfl⟩
    | cons e a =>
      cases h2
      exact absurd (by rw [h1]; simp) (hp w')
  · cases a with
    | nil => simp only [List.append_nil] at h1; cases h2; exact ⟨h1, rfl, rfl⟩
    | cons e a =>
      cases h2
      exact absurd (by rw [h1]; simp) (hp' w)

/-- C59, `Close` delivers: when the first `Close` returns, every span that was queued before it was called has been
handled, and the sender was flushed after that. -/
theorem C59_close_delivers {h : List Ev} {s : State} (hr : (sys (some f)).Run h s) {p q r : List Ev} {w : Nat}
    (hp : ∀ g, .close g ∉ p) (he : h = p ++ .close w :: q ++ .ret w :: r) :
    ∃ q1 q2, q = q1 ++ .flush :: q2 ∧ queued p <+: handled (p ++ .close w :: q1) := by
  obtain ⟨h0, s0, a, s1, pre, post, as, rest, hr0, hs, e1, e2, -⟩ := Lts.Run.split_at hr he
  replace hs : step (some f) s0 a = some (s1, pre ++ .ret w :: post) := hs
  have hi := invC_run hr0
  have hd := (invA_run hr0).alive
  -- the two places where `Close` returns
  have hcase : (s0.closed = true ∧ s0.pc w = .idle ∧ pre = [.close w]) ∨ (s0.pc w = .sender ∧ pre = [.senderClosed w]) := by
    have one : ∀ (e : Ev), [e] = pre ++ .ret w :: post → e = .ret w := by
      intro e h
      cases pre with
      | nil => cases h; rfl
      | cons x l => cases l <;> cases h
    have two : ∀ (e : Ev) g, [e, .ret g] = pre ++ .ret w :: post → e ≠ .ret w → pre = [e] ∧ g = w := by
      intro e g h hne
      cases pre with
      | nil => cases h; exact absurd rfl hne
      | cons x l =>
        cases l with
        | nil => cases h; exact ⟨rfl, rfl⟩
        | cons y l => cases l <;> cases h
    simp only [step, hd] at hs
    rw [if_neg (by decide)] at hs
    repeat' split at hs
    all_goals try cases hs
    all_goals simp only [Option.some.injEq, Prod.mk.injEq] at hs
    all_goals obtain ⟨-, hs⟩ := hs
    all_goals first
      | (exfalso; have := one _ hs; revert this; first | (split <;> simp) | simp)
      | (exfalso; revert hs; simp; done)
      | skip
    · obtain ⟨e, rfl⟩ := two _ _ hs (by simp); subst e; left; rename_i h1 h2; exact ⟨h2, h1, rfl⟩
    · obtain ⟨e, rfl⟩ := two _ _ hs (by simp); subst e; right; rename_i h1; exact ⟨h1, rfl⟩
  rcases hi with ⟨h1, -, h3⟩ | ⟨p', w', q', rfl, h1, h2, h3, h4⟩
  · exfalso
    rcases hcase with ⟨hc, -⟩ | ⟨hc, -⟩
    · rw [h3.open_] at hc; cases hc
    · rw [h3.pc] at hc; cases hc
  · rw [List.append_assoc, List.cons_append] at e1
    obtain ⟨rfl, rfl, rfl⟩ := first_unique hp h1 e1.symm
    have hpc : s0.pc w' ≠ .sending ∧ s0.pc w' ≠ .waiting := by
      rcases hcase with ⟨-, hc, -⟩ | ⟨hc, -⟩ <;> rw [hc] <;> simp
    cases h4 with
    | sending p1 => exact absurd p1 hpc.1
    | waiting _ _ p1 => exact absurd p1 hpc.2
    | closing p1 => exact absurd p1 hpc.2
    | fin r1 r2 _ _ _ p4 p5 => exact ⟨r1, r2 ++ pre, by rw [p4]; simp, p5⟩

/-- C59, `Close` is idempotent: the sender is closed at most once, and a second `Close` returns at once and changes
nothing. -/
theorem C59_close_once {h : List Ev} {s : State} (hr : (sys (some f)).Run h s) :
    (senderCloses h).length ≤ 1 ∧
      ∀ g0, .close g0 ∈ h → ∀ g, s.pc g = .idle → step (some f) s (.close g) = some (s, [.close g, .ret g]) := by
  have hi := invC_run hr
  have hd := (invA_run hr).alive
  rcases hi with ⟨h1, h2, -⟩ | ⟨p, w, q, rfl, h1, h2, h3, h4⟩
  · exact ⟨by rw [h2]; simp, fun g0 hg0 => absurd hg0 (h1 g0)⟩
  · refine ⟨?_, ?_⟩
    · cases h4 with
      | sending _ _ _ _ p5 => rw [p5]; simp
      | waiting _ _ _ _ _ _ _ _ _ p5 => rw [p5]; simp
      | closing _ _ _ _ _ p5 => rw [p5]; simp
      | fin _ _ _ _ _ _ _ _ p5 => rw [p5]; split <;> simp
    · intro _ _ g hg
      simp [step, hd, hg, h2]

/-- Running the worker takes everything in front of the close item. -/
theorem drain {w : Nat} {q2 : List Item} : ∀ (q1 : List Item) (s : State), s.dead = false → Taking s →
    s.queue = q1 ++ .close w :: q2 → NoClose q1 →
    ∃ n s' k, (sys (some f)).exec s (List.replicate n .work) = some (s', k) ∧ s'.dead = false ∧ s'.pc = s.pc ∧
      s'.woken w = true := by
  have spanStep : ∀ (s : State) x, s.dead = false → s.worker = .span x →
      (sys (some f)).step s .work = some ({ s with worker := .run }, [if f x then .delivered x else .filtered x]) := by
    intro s x hd hw
    change step (some f) s .work = _
    simp only [step, hd, hw]; rfl
  have main : ∀ (q1 : List Item) (s : State), s.dead = false → s.worker = .run →
      s.queue = q1 ++ .close w :: q2 → NoClose q1 →
      ∃ n s' k, (sys (some f)).exec s (List.replicate n .work) = some (s', k) ∧ s'.dead = false ∧ s'.pc = s.pc ∧
        s'.woken w = true := by
    intro q1
    induction q1 with
    | nil =>
      intro s hd hw hq _
      have h1 : (sys (some f)).step s .work = some ({ s with queue := q2, worker := .close w }, []) := by
        change step (some f) s .work = _
        simp only [step, hd, hw, hq, List.nil_append]; rfl
      have h2 : (sys (some f)).step { s with queue := q2, worker := .close w } .work =
          some ({ s with queue := q2, worker := .fin, woken := upd s.woken w true }, [.flush]) := by
        change step (some f) _ .work = _
        simp only [step, hd]; rfl
      exact ⟨2, _, _, Lts.exec_cons h1 (Lts.exec_cons h2 rfl), hd, rfl, by simp⟩
    | cons i q1 ih =>
      intro s hd hw hq hn
      cases i with
      | close g => exact absurd List.mem_cons_self (hn g)
      | span x =>
        have h1 : (sys (some f)).step s .work =
            some ({ s with queue := q1 ++ .close w :: q2, worker := .span x }, []) := by
          change step (some f) s .work = _
          simp only [step, hd, hw, hq, List.cons_append]; rfl
        have h2 := spanStep { s with queue := q1 ++ .close w :: q2, worker := .span x } x hd rfl
        obtain ⟨n, s', k, h3, h4, h5, h6⟩ := ih { s with queue := q1 ++ .close w :: q2, worker := .run } hd rfl rfl
          (noClose_tail hn)
        exact ⟨n + 2, s', _, Lts.exec_cons h1 (Lts.exec_cons h2 h3), h4, h5, h6⟩
  intro q1 s hd ht hq hn
  rcases ht with hw | ⟨x, hw⟩
  · exact main q1 s hd hw hq hn
  · obtain ⟨n, s', k, h3, h4, h5, h6⟩ := main q1 { s with worker := .run } hd rfl hq hn
    exact ⟨n + 1, s', _, Lts.exec_cons (spanStep s x hd hw) h3, h4, h5, h6⟩

/-- C59: a `Close` that has begun can always return: steps of the worker and of the caller alone get it there. -/
theorem C59_close_returns {h : List Ev} {s : State} (hr : (sys (some f)).Run h s) {w : Nat} (hw : s.pc w ≠ .idle) :
    ∃ as s' k, (∀ a ∈ as, a = .work ∨ a = .go w) ∧ (sys (some f)).exec s as = some (s', k) ∧ .ret w ∈ k := by
  have hi := invC_run hr
  have hA := invA_run hr
  rcases hi with ⟨-, -, h3⟩ | ⟨p, w', q, rfl, h1, h2, h3, h4⟩
  · exact absurd (h3.pc w) hw
  · have hww : w = w' := Decidable.byContradiction fun hne => hw (h3 w hne)
    subst hww
    -- from the sender
    have last : ∀ s : State, s.dead = false → s.pc w = .sender →
        ∃ s' k, (sys (some f)).exec s [.go w] = some (s', k) ∧ .ret w ∈ k := by
      intro s hd hp
      have e : (sys (some f)).step s (.go w) = some ({ s with pc := upd s.pc w .idle }, [.senderClosed w, .ret w]) := by
        change step (some f) s (.go w) = _
        simp only [step, hd, hp]; rfl
      exact ⟨_, _, Lts.exec_cons e rfl, by simp⟩
    have woke : ∀ s : State, s.dead = false → s.pc w = .waiting → s.woken w = true →
        ∃ s' k, (sys (some f)).exec s [.go w, .go w] = some (s', k) ∧ .ret w ∈ k := by
      intro s hd hp hk
      have e : (sys (some f)).step s (.go w) = some ({ s with pc := upd s.pc w .sender }, []) := by
        change step (some f) s (.go w) = _
        simp only [step, hd, hp, hk]; rfl
      obtain ⟨s', k, h1, h2⟩ := last { s with pc := upd s.pc w .sender } hd (by simp)
      exact ⟨s', _, Lts.exec_cons e h1, by simpa using h2⟩
    have wait : ∀ (s : State) q1 q2, s.dead = false → s.pc w = .waiting → Taking s →
        s.queue = q1 ++ .close w :: q2 → NoClose q1 →
        ∃ as s' k, (∀ a ∈ as, a = .work ∨ a = .go w) ∧ (sys (some f)).exec s as = some (s', k) ∧ .ret w ∈ k := by
      intro s q1 q2 hd hp ht hq hn
      obtain ⟨n, s', k, h1, h2, h3, h4⟩ := drain (f := f) q1 s hd ht hq hn
      obtain ⟨s'', k', h5, h6⟩ := woke s' h2 (by rw [h3]; exact hp) h4
      refine ⟨List.replicate n .work ++ [.go w, .go w], s'', k ++ k', ?_, Lts.exec_append h1 h5, by simp [h6]⟩
      intro a ha
      rcases List.mem_append.1 ha with ha | ha
      · exact Or.inl (List.eq_of_mem_replicate ha)
      · right; simp only [List.mem_cons, List.not_mem_nil, or_false] at ha; rcases ha with ha | ha <;> exact ha
    have send : ∀ (s : State), s.dead = false → s.pc w = .sending → Taking s → NoClose s.queue →
        s.queue.length < queueSize →
        ∃ as s' k, (∀ a ∈ as, a = .work ∨ a = .go w) ∧ (sys (some f)).exec s as = some (s', k) ∧ .ret w ∈ k := by
      intro s hd hp ht hn hl
      have e : (sys (some f)).step s (.go w) =
          some ({ s with queue := s.queue ++ [.close w], pc := upd s.pc w .waiting }, []) := by
        change step (some f) s (.go w) = _
        simp only [step, hd, hp]
        rw [if_neg (by decide), if_pos hl]
      obtain ⟨as, s', k, h1, h2, h3⟩ := wait { s with queue := s.queue ++ [.close w], pc := upd s.pc w .waiting }
        s.queue [] hd (by simp) ht rfl hn
      refine ⟨.go w :: as, s', _, ?_, Lts.exec_cons e h2, by simpa using h3⟩
      intro a ha
      rcases List.mem_cons.1 ha with rfl | ha
      · exact Or.inr rfl
      · exact h1 a ha
    cases h4 with
    | sending p1 p2 p3 _ _ =>
      by_cases hl : s.queue.length < queueSize
      · exact send s hA.alive p1 p3 p2 hl
      · -- the worker makes room
        have room : ∀ s : State, s.dead = false → s.pc w = .sending → s.worker = .run → NoClose s.queue →
            s.queue.length ≤ queueSize →
            ∃ as s' k, (∀ a ∈ as, a = .work ∨ a = .go w) ∧ (sys (some f)).exec s as = some (s', k) ∧ .ret w ∈ k := by
          intro s hd hp hw hn hl
          cases hq : s.queue with
          | nil => exact send s hd hp (Or.inl hw) hn (by rw [hq]; unfold queueSize; decide)
          | cons i q' =>
            cases i with
            | close g => exact absurd (by rw [hq]; exact List.mem_cons_self) (hn g)
            | span x =>
              have e : (sys (some f)).step s .work = some ({ s with queue := q', worker := .span x }, []) := by
                change step (some f) s .work = _
                simp only [step, hd, hw, hq]; rfl
              obtain ⟨as, s', k, h1, h2, h3⟩ := send { s with queue := q', worker := .span x } hd hp (Or.inr ⟨x, rfl⟩)
                (by rw [hq] at hn; exact noClose_tail hn) (by rw [hq, List.length_cons] at hl; exact hl)
              refine ⟨.work :: as, s', _, ?_, Lts.exec_cons e h2, by simpa using h3⟩
              intro a ha
              rcases List.mem_cons.1 ha with rfl | ha
              · exact Or.inl rfl
              · exact h1 a ha
        rcases p3 with hw | ⟨x, hw⟩
        · exact room s hA.alive p1 hw p2 hA.len
        · have e : (sys (some f)).step s .work =
              some ({ s with worker := .run }, [if f x then .delivered x else .filtered x]) := by
            change step (some f) s .work = _
            simp only [step, hA.alive, hw]; rfl
          obtain ⟨as, s', k, h1, h2, h3⟩ := room { s with worker := .run } hA.alive p1 rfl p2 hA.len
          refine ⟨.work :: as, s', _, ?_, Lts.exec_cons e h2, List.mem_append_right _ h3⟩
          intro a ha
          rcases List.mem_cons.1 ha with rfl | ha
          · exact Or.inl rfl
          · exact h1 a ha
    | waiting q1 q2 p1 p2 p3 _ _ p6 _ _ => exact wait s q1 q2 hA.alive p1 p6 p2 p3
    | closing p1 p2 p3 _ _ _ =>
      have e : (sys (some f)).step s .work = some ({ s with worker := .fin, woken := upd s.woken w true }, [.flush]) := by
        change step (some f) s .work = _
        simp only [step, hA.alive, p3]; rfl
      obtain ⟨s', k, h1, h2⟩ := woke { s with worker := .fin, woken := upd s.woken w true } hA.alive p1 (by simp)
      exact ⟨[.work, .go w, .go w], s', _, by simp, Lts.exec_cons e h1, by simp [h2]⟩
    | fin r1 r2 _ _ p3 _ _ p6 _ =>
      cases hp : s.pc w with
      | idle => exact absurd hp hw
      | sending => exact absurd hp p6
      | waiting =>
        obtain ⟨s', k, h1, h2⟩ := woke s hA.alive hp p3
        exact ⟨_, s', k, by simp, h1, h2⟩
      | sender =>
        obtain ⟨s', k, h1, h2⟩ := last s hA.alive hp
        exact ⟨_, s', k, by simp, h1, h2⟩

/-- C59 is violated if the sampling rate is not between 0 and 1: the error of the sampler is dropped, and the first
span that is reported crashes the process. -/
theorem C59_bad_rate_refuted (x : Nat) : ∃ h s, (sys none).Run h s ∧ .reported x true ∈ h ∧ .panic ∈ h ∧
    ∀ a, step none s a = none :=
  ⟨[.reported x true, .panic], _, Lts.run_of_exec (M := sys none) (as := [.report x, .work, .work]) rfl, by simp, by simp,
    fun _ => rfl⟩

/-- The example: two spans before `Close`, one of them sampled, one after it; a second `Close` meanwhile. -/
example : ∃ h s, (sys (some (· % 2 == 0))).Run h s ∧ queued h = [4, 5, 6] ∧ handled h = [4, 5] ∧ delivered h = [4] ∧
    ∃ p q r, (∀ g, .close g ∉ p) ∧ h = p ++ .close 0 :: q ++ .ret 0 :: r ∧ .close 1 ∈ q ∧ .ret 1 ∈ q ∧ queued p = [4, 5] := by
  refine ⟨[.reported 4 true, .reported 5 true, .close 0, .close 1, .ret 1, .reported 6 true, .delivered 4, .filtered 5,
    .flush, .senderClosed 0, .ret 0], _, Lts.run_of_exec (M := sys (some (· % 2 == 0))) (as := [.report 4, .report 5, .close 0,
    .close 1, .go 0, .report 6, .work, .work, .work, .work, .work, .work, .go 0, .go 0]) rfl, rfl, rfl, rfl,
    [.reported 4 true, .reported 5 true], [.close 1, .ret 1, .reported 6 true, .delivered 4, .filtered 5, .flush,
    .senderClosed 0], [], ?_, rfl, ?_, ?_, rfl⟩ <;> simp

end Braid.Reporter
