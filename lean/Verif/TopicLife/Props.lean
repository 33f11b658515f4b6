import Verif.TopicLife.Inv

/-
C104: what is delivered from a topic that is created while it is used, and what is lost when it is closed.
-/
namespace Braid.TopicLife
open Spec

/-! ### Only what was published is delivered -/

/-- C104 (partial): what a subscriber receives was put into the stream before, and it is a published message if no `newTopic`
is in progress then and no command of one failed. Missing: the case of overlapping `newTopic` calls
(`C104_published_refuted`). -/
theorem C104_published_partial {h : List Ev} {s : State} (hr : sys.Run h s) {h1 h2 : List Ev} {grp : String} {c : Content}
    (he : h = h1 ++ .got grp c :: h2) :
    .added c ∈ h1 ∧ (CleanCreates h1 → (∀ g, (g, .create) ∉ activeOf h1) → c ≠ .new) := by
  obtain ⟨h0, s0, a, s1, pre, post, -, -, hr0, hs, hh, -⟩ := hr.split_at he
  have hs : step s0 a = some (s1, pre ++ .got grp c :: post) := hs
  have hrd : pre = [] ∧ ∃ t id, s0.stream = some t ∧ (id, c) ∈ t.entries := by
    cases a with
    | read grp' =>
      simp only [step] at hs
      split at hs
      · cases hs
      · rename_i t hst
        split at hs
        · cases hs
        · split at hs
          · cases hs
          · rename_i e hf
            simp only [Option.some.injEq, Prod.mk.injEq] at hs
            have hs := hs.2
            cases pre with
            | nil =>
              simp only [List.nil_append, List.cons.injEq, Ev.got.injEq] at hs
              exact ⟨rfl, t, e.1, hst, by rw [← hs.1.2]; exact List.mem_of_find?_eq_some hf⟩
            | cons x l => simp at hs
    | _ =>
      have hm : Ev.got grp c ∈ pre ++ .got grp c :: post := by simp
      generalize pre ++ .got grp c :: post = evs at hs hm
      tl_cases hs
      all_goals simp at hm
  obtain ⟨hp, t, id, hst, hm⟩ := hrd
  subst hp
  rw [List.append_nil] at hh
  subst hh
  refine ⟨(rinv_run hr0).added t hst _ hm, fun hc hn hnew => ?_⟩
  subst hnew
  rcases (rinv_run hr0).new t hst id hm with ⟨g, hg⟩ | ⟨g, hg⟩
  · exact hn g (act_run hr0 g .create (by rw [hg]; rfl))
  · exact hc g hg

/-- C104: without any failure a subscriber may receive the entry by which `newTopic` creates the stream, as a message without
an event: two processes create the topic at the same time, and one of them subscribes before the other has deleted its entry. -/
theorem C104_published_refuted : ∃ h s h1 h2 c, sys.Run h s ∧ (∀ g o, .fault g o ∉ h) ∧ h = h1 ++ .got "a" c :: h2 ∧ c = .new ∧
    .finish 0 .create false ∈ h1 ∧ ∀ g e b, .begin g (.pub e b) ∉ h := by
  have hr : ∃ s, sys.Run ([.begin 0 .create, .begin 1 .create, .added .new, .finish 0 .create false, .begin 0 (.sub "a" false),
      .grouped "a", .finish 0 (.sub "a" false) false, .added .new] ++ .got "a" .new :: []) s :=
    ⟨_, Lts.run_of_exec (M := sys) (as := [.start 0 .create, .start 1 .create, .go 0 .ok, .go 1 .ok, .go 0 .ok,
      .go 0 .ok, .start 0 (.sub "a" false), .go 0 .ok, .go 1 .ok, .read "a"]) rfl⟩
  obtain ⟨s, hr⟩ := hr
  exact ⟨_, s, _, _, _, hr, by simp, rfl, rfl, by simp, by simp⟩

/-- The hypotheses of `C104_published_partial` can be met: a message is published to a topic that exists and received. -/
example : ∃ h s h1 h2 c, sys.Run h s ∧ h = h1 ++ .got "a" c :: h2 ∧ CleanCreates h1 ∧ (∀ g, (g, .create) ∉ activeOf h1) ∧
    c = .msg 2 "e" [1] := by
  have hr : ∃ s, sys.Run ([.begin 0 .create, .added .new, .finish 0 .create false, .begin 0 (.sub "a" false),
      .grouped "a", .finish 0 (.sub "a" false) false, .begin 1 (.pub "e" [1]), .added (.msg 2 "e" [1]),
      .finish 1 (.pub "e" [1]) false] ++ .got "a" (.msg 2 "e" [1]) :: []) s :=
    ⟨_, Lts.run_of_exec (M := sys) (as := [.start 0 .create, .go 0 .ok, .go 0 .ok, .go 0 .ok, .start 0 (.sub "a" false), .go 0 .ok,
      .start 1 (.pub "e" [1]), .go 1 .ok, .read "a"]) rfl⟩
  obtain ⟨s, hr⟩ := hr
  exact ⟨_, s, _, _, _, hr, rfl, by simp [CleanCreates], by simp [activeOf, active], rfl⟩

/-! ### What is lost -/

/-- C104: if `Pub` returns no error then the message has an event and is in the stream at that moment, as its last entry. -/
theorem C104_pub {h : List Ev} {s : State} (hr : sys.Run h s) {h1 h2 : List Ev} {g : Nat} {e : String} {b : List UInt8}
    (he : h = h1 ++ .finish g (.pub e b) false :: h2) : e ≠ "" ∧ ∃ p n, h1 = p ++ [.added (.msg n e b)] := by
  obtain ⟨h0, s0, a, s1, pre, post, -, -, hr0, hs, hh, -⟩ := hr.split_at he
  have hs : step s0 a = some (s1, pre ++ .finish g (.pub e b) false :: post) := hs
  have hm : Ev.finish g (.pub e b) false ∈ pre ++ .finish g (.pub e b) false :: post := by simp
  have hev : ∃ n evs, e ≠ "" ∧ pre ++ .finish g (.pub e b) false :: post = evs ∧
      evs = [.added (.msg n e b), .finish g (.pub e b) false] := by
    generalize pre ++ .finish g (.pub e b) false :: post = evs at hs hm
    cases a <;> tl_cases hs
    all_goals simp at hm
    obtain ⟨rfl, rfl, rfl⟩ := hm
    exact ⟨_, _, by assumption, rfl, rfl⟩
  obtain ⟨n, evs, hne, h3, h4⟩ := hev
  refine ⟨hne, h0, n, ?_⟩
  rw [hh]
  congr 1
  rw [h4] at h3
  cases pre with
  | nil => simp at h3
  | cons x l =>
    simp only [List.cons_append, List.cons.injEq] at h3
    cases l with
    | nil => rw [h3.1]
    | cons y l => simp at h3

/-- In one step, what follows a failing command is the error. -/
theorem fault_step {s s' : State} {a : Act} {evs pre post : List Ev} {g : Nat} {o : Op} (hs : step s a = some (s', evs))
    (he : evs = pre ++ .fault g o :: post) (ho : o ≠ .create) : post = [.finish g o true] := by
  cases a <;> tl_cases hs
  all_goals rcases pre with _ | ⟨x, _ | ⟨y, _ | ⟨z, pre⟩⟩⟩
  all_goals simp at he
  all_goals first
    | exact absurd he.1.2.symm ho
    | exact absurd he.2.1.2.symm ho
    | (rw [← he.2, he.1.1, he.1.2]; done)
    | (rw [← he.2.2, he.2.1.1, he.2.1.2]; done)

/-- C104: when a command of `Pub`, `Sub` or `Close` fails or its answer is lost, the call returns an error at once. -/
theorem C104_fault_reported {h : List Ev} {s : State} (hr : sys.Run h s) {h1 h2 : List Ev} {g : Nat} {o : Op}
    (he : h = h1 ++ .fault g o :: h2) (ho : o ≠ .create) : ∃ h3, h2 = .finish g o true :: h3 := by
  obtain ⟨h0, s0, a, s1, pre, post, as, rest, -, hs, -, rfl, -⟩ := hr.split_at he
  exact ⟨rest, by rw [fault_step hs rfl ho]; rfl⟩

/-- In one step, where an error comes from. -/
theorem error_step {s s' : State} {a : Act} {evs pre post : List Ev} {g : Nat} {o : Op} (hs : step s a = some (s', evs))
    (he : evs = pre ++ .finish g o true :: post) : (∃ p, pre = p ++ [.fault g o]) ∨ (∃ b, o = .pub "" b) ∨
      (pre = [] ∧ ∃ c f, o = .sub c f ∧ s.stream = none) := by
  cases a <;> tl_cases hs
  all_goals rcases pre with _ | ⟨x, _ | ⟨y, _ | ⟨z, pre⟩⟩⟩
  all_goals simp at he
  all_goals first
    | exact .inl ⟨[], by rw [← he.1, he.2.1.1, he.2.1.2]; rfl⟩
    | exact .inl ⟨[x], by rw [← he.2.1, he.2.2.1.1, he.2.2.1.2]; rfl⟩
    | exact .inr (.inr ⟨rfl, _, _, he.1.2.symm, by assumption⟩)
    | (subst_vars; exact .inr (.inl ⟨_, he.1.2.symm⟩))

/-- C104: a call returns an error only for one of these reasons: a command failed or its answer was lost just before, a message
was published without an event, or a channel was subscribed to while there was no stream. -/
theorem C104_error_reasons {h : List Ev} {s : State} (hr : sys.Run h s) {h1 h2 : List Ev} {g : Nat} {o : Op}
    (he : h = h1 ++ .finish g o true :: h2) : (∃ p, h1 = p ++ [.fault g o]) ∨ (∃ b, o = .pub "" b) ∨
      (∃ c f, o = .sub c f ∧ ∃ s1, sys.Run h1 s1 ∧ s1.stream = none) := by
  obtain ⟨h0, s0, a, s1, pre, post, as, rest, hr0, hs, rfl, -⟩ := hr.split_at he
  rcases error_step hs rfl with ⟨p, rfl⟩ | h | ⟨rfl, c, f, h1, h2⟩
  · exact .inl ⟨h0 ++ p, by simp⟩
  · exact .inr (.inl h)
  · exact .inr (.inr ⟨c, f, h1, s0, by rw [List.append_nil]; exact hr0, h2⟩)

/-- All three happen. -/
example : (∃ s, sys.Run [.begin 0 .close, .fault 0 .close, .finish 0 .close true] s) ∧
    (∃ s, sys.Run [.begin 0 (.pub "" [1]), .finish 0 (.pub "" [1]) true] s) ∧
    ∃ s, sys.Run [.begin 0 (.sub "a" true), .finish 0 (.sub "a" true) true] s :=
  ⟨⟨_, Lts.run_of_exec (M := sys) (as := [.start 0 .close, .go 0 .failed]) rfl⟩,
    ⟨_, Lts.run_of_exec (M := sys) (as := [.start 0 (.pub "" [1]), .go 0 .ok]) rfl⟩,
    ⟨_, Lts.run_of_exec (M := sys) (as := [.start 0 (.sub "a" true), .go 0 .ok]) rfl⟩⟩

/-- C104: a published message stays in the stream until a subscriber receives it, a `Close` deletes the stream with it, or the
stream expires after it. -/
theorem C104_kept {h : List Ev} {s : State} (hr : sys.Run h s) {n : Nat} {e : String} {b : List UInt8}
    (hp : .added (.msg n e b) ∈ h) : (∃ t, s.stream = some t ∧ .msg n e b ∈ t.entries.map (·.2)) ∨
      (∃ grp, .got grp (.msg n e b) ∈ h) ∨ (∃ g l gs, .erased g l gs ∈ h ∧ .msg n e b ∈ l) ∨
      ∃ h1 h2, h = h1 ++ .expired :: h2 ∧ .added (.msg n e b) ∈ h1 := by
  rcases kinv_run hr n e b hp with ⟨t, h1, id, h2⟩ | h1 | h1 | h1
  · exact .inl ⟨t, h1, List.mem_map_of_mem h2⟩
  · exact .inr (.inl h1)
  · exact .inr (.inr (.inl h1))
  · exact .inr (.inr (.inr h1))

/-- C104 (partial): when `Close` deletes the stream, whatever message or channel is lost with it came after the call of `Close`.
Missing: that none is lost (`C104_lost_refuted`). -/
theorem C104_close_partial {h : List Ev} {s : State} (hr : sys.Run h s) {h1 h2 : List Ev} {g : Nat} {l : List Content}
    {gs : List String} (he : h = h1 ++ .erased g l gs :: h2) :
    (∀ c ∈ l, DuringClose g (.added c) h1) ∧ ∀ grp ∈ gs, DuringClose g (.grouped grp) h1 := by
  obtain ⟨h0, s0, a, s1, pre, post, -, -, hr0, hs, hh, -⟩ := hr.split_at he
  have hs : step s0 a = some (s1, pre ++ .erased g l gs :: post) := hs
  have hd : pre = [] ∧ s0.pc g = .cDel ∧ l = (s0.stream.map fun t => t.entries.map (·.2)).getD [] ∧
      gs = (s0.stream.map fun t => t.groups.map (·.1)).getD [] := by
    have hm : Ev.erased g l gs ∈ pre ++ .erased g l gs :: post := by simp
    have hpre : ∀ x k, pre ++ .erased g l gs :: post = x :: k → (∀ y ∈ k, ∀ g l gs, y ≠ .erased g l gs) → pre = [] := by
      intro x k h1 h2
      cases pre with
      | nil => rfl
      | cons y p =>
        simp only [List.cons_append, List.cons.injEq] at h1
        exact absurd rfl (h2 (.erased g l gs) (by rw [← h1.2]; simp) g l gs)
    generalize pre ++ .erased g l gs :: post = evs at hs hm hpre
    cases a <;> tl_cases hs
    all_goals simp at hm
    all_goals
      obtain ⟨rfl, rfl, rfl⟩ := hm
      exact ⟨hpre _ _ rfl (by simp), by assumption, rfl, rfl⟩
  obtain ⟨hp, hpc, hl, hg⟩ := hd
  subst hp
  rw [List.append_nil] at hh
  subst hh
  obtain ⟨p, q, e1, e2, e3, e4⟩ := cinv_run hr0 g (by rw [hpc]; rfl)
  cases hst : s0.stream with
  | none => simp [hl, hg, hst]
  | some t =>
    rw [hst] at hl hg
    subst hl hg
    refine ⟨fun c hc => ?_, fun grp hc => ?_⟩
    · obtain ⟨x, hx, rfl⟩ := List.mem_map.1 hc
      exact ⟨p, q, e1, e2, e4 hpc t hst x hx⟩
    · obtain ⟨x, hx, rfl⟩ := List.mem_map.1 hc
      exact ⟨p, q, e1, e2, e3 (by rw [hpc]; simp) t hst x hx⟩

/-- C104: without any failure a channel on which `Sub` returned no error, and a message that `Pub` reported as published to it,
are lost for good if they come between the checks of a `Close` and its deletion: the subscriber receives nothing any more. -/
theorem C104_lost_refuted : ∃ h s c, sys.Run h s ∧ (∀ g o, .fault g o ∉ h) ∧ .expired ∉ h ∧
    Before h (.finish 0 (.sub "a" false) false) (.added c) ∧ Before h (.added c) (.finish 0 (.pub "e" [1]) false) ∧
    c = .msg 2 "e" [1] ∧ (∀ grp c, .got grp c ∉ h) ∧
    ∀ as s2 k, sys.exec s as = some (s2, k) → (∀ g f, .begin g (.sub "a" f) ∉ k) → ∀ c, .got "a" c ∉ k := by
  have hr : ∃ s, sys.exec init [.start 0 .create, .go 0 .ok, .go 0 .ok, .go 0 .ok, .start 1 .close, .go 1 .ok,
      .go 1 .ok, .start 0 (.sub "a" false), .go 0 .ok, .start 0 (.pub "e" [1]), .go 0 .ok, .go 1 .ok] =
      some (s, [.begin 0 .create, .added .new, .finish 0 .create false, .begin 1 .close, .begin 0 (.sub "a" false), .grouped "a",
        .finish 0 (.sub "a" false) false, .begin 0 (.pub "e" [1]), .added (.msg 2 "e" [1]), .finish 0 (.pub "e" [1]) false,
        .erased 1 [.msg 2 "e" [1]] ["a"], .finish 1 .close false]) ∧ s.stream = none ∧ ∀ g, s.pc g = .idle := by
    refine ⟨_, rfl, rfl, fun g => ?_⟩
    simp only [at_, xadd, xdel, upd_apply, init]
    repeat' split
    all_goals rfl
  obtain ⟨s, hx, hst, hpc⟩ := hr
  refine ⟨_, s, _, Lts.run_of_exec (M := sys) hx, by simp, by simp, ?_, ?_, rfl, by simp, ?_⟩
  · exact List.isSublist_iff_sublist.1 (by decide +kernel)
  · exact List.isSublist_iff_sublist.1 (by decide +kernel)
  · intro as
    have key : ∀ (as : List Act) (s s2 : State) (k : List Ev), NoGroup "a" s → sys.exec s as = some (s2, k) →
        (∀ g f, .begin g (.sub "a" f) ∉ k) → ∀ c, .got "a" c ∉ k := by
      intro as
      induction as with
      | nil =>
        intro s s2 k _ he _ c hm
        simp only [Lts.exec, Option.some.injEq, Prod.mk.injEq] at he
        rw [← he.2] at hm
        cases hm
      | cons a as ih =>
        intro s s2 k hi he hb c hm
        simp only [Lts.exec] at he
        split at he
        · cases he
        · rename_i s1 e1 hs
          split at he
          · cases he
          · rename_i s3 e2 he2
            cases he
            have hst := hi.step hs (fun g f h => hb g f (List.mem_append_left _ h))
            rcases List.mem_append.1 hm with hm | hm
            · exact hst.2 c hm
            · exact ih s1 s2 e2 hst.1 he2 (fun g f h => hb g f (List.mem_append_right _ h)) c hm
    intro s2 k
    exact key as s s2 k ⟨by simp [hst], by simp [hpc]⟩

/-- The hypotheses of `C104_pub`, `C104_kept` and `C104_close_partial` can be met, the last with something lost. -/
example : ∃ h s h1 h2 h3 h4, sys.Run h s ∧ h = h1 ++ .finish 0 (.pub "e" [1]) false :: h2 ∧ .added (.msg 2 "e" [1]) ∈ h ∧
    h = h3 ++ .erased 1 [.msg 2 "e" [1]] ["a"] :: h4 := by
  have hr : ∃ s, sys.Run [.begin 0 .create, .added .new, .finish 0 .create false, .begin 1 .close, .begin 0 (.sub "a" false),
      .grouped "a", .finish 0 (.sub "a" false) false, .begin 0 (.pub "e" [1]), .added (.msg 2 "e" [1]),
      .finish 0 (.pub "e" [1]) false, .erased 1 [.msg 2 "e" [1]] ["a"], .finish 1 .close false] s :=
    ⟨_, Lts.run_of_exec (M := sys) (as := [.start 0 .create, .go 0 .ok, .go 0 .ok, .go 0 .ok, .start 1 .close, .go 1 .ok, .go 1 .ok,
      .start 0 (.sub "a" false), .go 0 .ok, .start 0 (.pub "e" [1]), .go 0 .ok, .go 1 .ok]) rfl⟩
  obtain ⟨s, hr⟩ := hr
  exact ⟨_, s, [.begin 0 .create, .added .new, .finish 0 .create false, .begin 1 .close, .begin 0 (.sub "a" false),
      .grouped "a", .finish 0 (.sub "a" false) false, .begin 0 (.pub "e" [1]), .added (.msg 2 "e" [1])], _,
    [.begin 0 .create, .added .new, .finish 0 .create false, .begin 1 .close, .begin 0 (.sub "a" false),
      .grouped "a", .finish 0 (.sub "a" false) false, .begin 0 (.pub "e" [1]), .added (.msg 2 "e" [1]),
      .finish 0 (.pub "e" [1]) false], _, hr, rfl, by simp, rfl⟩

end Braid.TopicLife
