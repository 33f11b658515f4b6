import Verif.TopicOpts.Spec

/-
Property C69: options of topics, for every sequence of subscriptions, direct creations and passing of time.
-/
namespace Braid.TopicOpts

theorem ttlOf_append (a b : List TOpt) : ttlOf (a ++ b) = b.foldl applyOpt (ttlOf a) := by
  simp [ttlOf, List.foldl_append]

theorem foldl_noTtl {b : List TOpt} (h : ∀ d, TOpt.ttl d ∉ b) (t : Int) : b.foldl applyOpt t = t := by
  induction b generalizing t with
  | nil => rfl
  | cons x b ih =>
    have hb := ih (fun d hd => h d (List.mem_cons_of_mem _ hd))
    cases x with
    | ttl d => exact absurd (List.mem_cons_self) (h d)
    | callback => exact hb t

theorem GivesTtl.eq {opts : List TOpt} {d : Int} (h : GivesTtl opts d) : ttlOf opts = d := by
  obtain ⟨a, b, rfl, hb⟩ := h
  rw [ttlOf_append, List.foldl_cons, foldl_noTtl hb]; rfl

theorem secs_whole {n : Int} (h : 0 < n) : secs (n * 1000000000) = n := by
  unfold secs
  rw [if_neg (by omega)]
  omega

/-- **C69**, the part that holds: `CreateTopic` gives a new topic the time to live of its last option, and does not
touch other topics. What is missing: subscriptions of actors. -/
theorem C69_create_partial {s s' : State} {t : String} {opts : List TOpt} {n : Int} {evs : List Ev} (hf : Fresh s t)
    (ho : GivesTtl opts (n * 1000000000)) (hn : 0 < n) (hs : sys.step s (.create t opts good) = some (s', evs)) :
    s'.stream t = true ∧ s'.expiry t = some (s.now + n) ∧ ∀ u, u ≠ t → s'.expiry u = s.expiry u := by
  replace hs : step s (.create t opts good) = some (s', evs) := hs
  simp only [step, Option.some.injEq, Prod.mk.injEq] at hs
  obtain ⟨rfl, rfl⟩ := hs
  unfold createTopic
  rw [if_neg hf.1]
  unfold newTopic
  rw [if_neg (by simp [hf.2]), if_neg (by simp [good]), ho.eq, secs_whole hn]
  have h1 : n * 1000000000 > 0 := by omega
  refine ⟨by simp, by simp [h1, good], fun u hu => ?_⟩
  simp [h1, good, upd_of_ne _ _ hu]

/-- **C69**, the part that holds: times to live are rounded down to seconds, and up to one second if they are shorter;
without a positive time to live a new topic does not expire. -/
theorem C69_rounding_partial {s s' : State} {t : String} {opts : List TOpt} {d : Int} {evs : List Ev} (hf : Fresh s t)
    (hx : s.expiry t = none) (ho : GivesTtl opts d) (hs : sys.step s (.create t opts good) = some (s', evs)) :
    (d ≤ 0 → s'.expiry t = none) ∧
    (0 < d → ∃ n, s'.expiry t = some (s.now + n) ∧ 1 ≤ n ∧
      (n * 1000000000 ≤ d ∧ d < (n + 1) * 1000000000 ∨ n = 1 ∧ d < 1000000000)) := by
  replace hs : step s (.create t opts good) = some (s', evs) := hs
  simp only [step, Option.some.injEq, Prod.mk.injEq] at hs
  obtain ⟨rfl, rfl⟩ := hs
  unfold createTopic
  rw [if_neg hf.1]
  unfold newTopic
  rw [if_neg (by simp [hf.2]), if_neg (by simp [good]), ho.eq]
  constructor
  · intro h; rw [if_neg (by omega)]; exact hx
  · intro h
    refine ⟨secs d, by simp [h, good], ?_, ?_⟩ <;> unfold secs <;> split <;> omega

example : Fresh init "t" ∧ init.expiry "t" = none ∧ GivesTtl [.ttl 5, .ttl 1500000000, .callback] 1500000000 :=
  ⟨⟨by decide, rfl⟩, rfl, [.ttl 5], [.callback], rfl, by simp⟩

/-- **C69**, the part that holds: the options of any later creation are without effect. -/
theorem C69_later_partial {s s' : State} {t : String} {opts : List TOpt} {o : Out} {evs : List Ev} (hf : t ∈ s.topicMap)
    (hs : sys.step s (.create t opts o) = some (s', evs)) : s' = s := by
  replace hs : step s (.create t opts o) = some (s', evs) := hs
  simp only [step, Option.some.injEq, Prod.mk.injEq] at hs
  obtain ⟨rfl, rfl⟩ := hs
  rw [createTopic, if_pos hf]

/-- **C69** is violated by every subscription: as long as topics come from actors' subscriptions no topic ever
expires, whatever the options. -/
theorem C69_never_refuted {h : List Ev} {s : State} (hr : sys.Run h s) (ho : OnlySubs h) :
    ∀ t, s.expiry t = none := by
  induction hr with
  | init => intro t; rfl
  | @step h s a s' evs hr hs ih =>
    have hi := ih (fun t opts hm => ho t opts (List.mem_append_left _ hm))
    replace hs : step s a = some (s', evs) := hs
    cases a with
    | sub t opts o grp =>
      simp only [step, sysSub, Option.some.injEq, Prod.mk.injEq] at hs
      obtain ⟨rfl, rfl⟩ := hs
      intro u
      have ht : ¬ (ttlOf [] > 0 ∧ o.expireOk = true) := fun h => absurd h.1 (by decide)
      unfold getOrCreateTopic createTopic newTopic
      simp only [if_neg ht]
      repeat' split
      all_goals exact hi u
    | create t opts o =>
      simp only [step, Option.some.injEq, Prod.mk.injEq] at hs
      obtain ⟨rfl, rfl⟩ := hs
      exact absurd (List.mem_append_right _ (List.mem_singleton.2 rfl)) (ho t opts)
    | time d =>
      simp only [step, Option.some.injEq, Prod.mk.injEq] at hs
      obtain ⟨rfl, rfl⟩ := hs
      intro u
      simp [hi u]

/-- **C69** is violated. -/
theorem C69_refuted : ¬ SubSetsTtl := by
  intro hc
  have h1 : sys.step init (.sub "t" [.ttl 5000000000] good true) = some (_, [.sub "t" [.ttl 5000000000] true]) := rfl
  have hr : sys.Run ([] ++ [Ev.sub "t" [.ttl 5000000000] true]) _ := Lts.Run.init.step h1
  have := hc [] init "t" [.ttl 5000000000] 5 _ _ Lts.Run.init ⟨by simp [init], rfl⟩ ⟨[], [], rfl, by simp⟩ (by decide) h1
  rw [C69_never_refuted hr (by intro t o; simp) "t"] at this
  cases this

/-- A subscription, then another topic created with options, the last of which counts. -/
example : ∃ h s, sys.Run h s ∧ s.stream "t" = true ∧ s.expiry "t" = none ∧ Fresh s "u" ∧
    GivesTtl [.ttl 1, .callback, .ttl (7 * 1000000000), .callback] (7 * 1000000000) :=
  ⟨[.time 3, .sub "t" [.ttl 5000000000] true], _, Lts.run_of_exec (M := sys)
    (as := [.time 3, .sub "t" [.ttl 5000000000] good true]) rfl, rfl, rfl, ⟨by decide, rfl⟩,
    [.ttl 1, .callback], [.callback], rfl, by simp⟩

/-- **C69**: a new topic is listed iff `SADD` does not fail, whoever creates it; an existing one is not listed again. -/
theorem C69_listed {s s' : State} {t : String} {opts : List TOpt} {o : Out} {evs : List Ev} {a : Act}
    (ha : a = .create t opts o ∨ ∃ g, a = .sub t opts o g) (hs : sys.step s a = some (s', evs)) :
    (Fresh s t → o.addOk = true → s'.listed = if o.saddOk then t :: s.listed else s.listed) ∧
    (t ∈ s.topicMap → s'.listed = s.listed) := by
  rcases ha with rfl | ⟨g, rfl⟩ <;> cases hs
  · refine ⟨fun ⟨h1, h2⟩ h3 => ?_, fun h => by simp [createTopic, h]⟩
    simp [createTopic, newTopic, h1, h2, h3]
  · refine ⟨fun ⟨h1, h2⟩ h3 => ?_, fun h => by simp [sysSub, getOrCreateTopic, h]⟩
    simp [sysSub, getOrCreateTopic, createTopic, newTopic, h1, h2, h3]

example : Fresh init "t" ∧ good.addOk = true := ⟨by simp [Fresh, init], rfl⟩

end Braid.TopicOpts
