import Verif.Redis.Spec

/-
Properties C72 and C76: results of Redis commands, and options of the Redis client.
-/
namespace Braid.Redis

theorem cmdsLoop_map (vs : List (List UInt8)) (b : List (List UInt8)) : cmdsLoop b (vs.map .str) = .ret (b ++ vs) none := by
  induction vs generalizing b with
  | nil => simp [cmdsLoop]
  | cons v vs ih => simp [cmdsLoop, ih]

theorem cmdsLoop_err (cs : List Cmd) (b : List (List UInt8)) : ∀ bts e, cmdsLoop b cs ≠ .ret bts (some e) := by
  induction cs generalizing b with
  | nil => intro bts e; simp [cmdsLoop]
  | cons c cs ih =>
    intro bts e
    cases c with
    | str v => exact ih _ bts e
    | err x => simp [cmdsLoop]
    | other => simp [cmdsLoop]

/-- **C72**, the part that holds: if all commands succeeded their values come back in order, with no error. What is
missing: commands that failed. -/
theorem C72_values_partial (vs : List (List UInt8)) : getCmdsByteSlice (vs.map .str) = .ret vs none :=
  cmdsLoop_map vs []

/-- **C72**, what happens: the values before the first failure come back, with no error. -/
theorem C72_prefix_partial (vs : List (List UInt8)) (e : Nat) (cs : List Cmd) :
    getCmdsByteSlice (vs.map .str ++ .err e :: cs) = .ret vs none := by
  suffices h : ∀ b, cmdsLoop b (vs.map .str ++ .err e :: cs) = .ret (b ++ vs) none by simpa [getCmdsByteSlice] using h []
  induction vs with
  | nil => intro b; simp [cmdsLoop]
  | cons v vs ih => intro b; simp [cmdsLoop, ih]

/-- **C72** is violated by every list with a failed command: no error is ever returned. -/
theorem C72_never_refuted (cs : List Cmd) : ∀ bts e, getCmdsByteSlice cs ≠ .ret bts (some e) := cmdsLoop_err cs []

/-- **C72** is violated: the second of three commands failed, and one value comes back with no error. -/
theorem C72_refuted : ∃ cs, getCmdsByteSlice cs = .ret [[1]] none ∧ ¬ Reports cs (getCmdsByteSlice cs) :=
  ⟨[.str [1], .err 0, .str [2]], rfl, fun h => by
    obtain ⟨b, e, h⟩ := h.2 ⟨0, by simp⟩
    exact C72_never_refuted _ b e h⟩

/-- One option changes a field only if it sets it, or is a URL. -/
theorem apply_other {parse : Parse} {c c' : Conf} {o : Opt} {f : Field} (h : apply parse c o = some c')
    (hu : o.isUrl = false) (hm : means parse o f = none) (hf : f ≠ .connMaxLifetime) : c' f = c f := by
  cases o <;> simp [apply, Opt.isUrl] at h hu <;> subst h <;> cases f <;>
    first
      | rfl
      | (exact absurd rfl hf)
      | (simp [means] at hm)

theorem apply_sets {parse : Parse} {c c' : Conf} {o : Opt} {f : Field} {v : Nat} (hl : Lawful parse)
    (h : apply parse c o = some c') (hm : means parse o f = some v) (hd : f ≠ .dialTimeout ∨ o.isUrl = true) : c' f = v := by
  cases o
  case withAddr url =>
    simp only [apply, Option.map_eq_some_iff] at h
    obtain ⟨p, hp, rfl⟩ := h
    simp only [means, hp, Option.bind_some] at hm
    have : f ≠ .tracer := by rintro rfl; rw [hl _ _ hp] at hm; cases hm
    simp [this, hm]
  all_goals
    simp only [apply, Option.some.injEq] at h
    subst h
    cases f <;> simp [means, Opt.isUrl] at hm hd <;> (subst hm; simp)

theorem applyAll_append (parse : Parse) (c : Conf) (a b : List Opt) (h : (applyAll parse c (a ++ b)).2 = true) :
    (applyAll parse c a).2 = true ∧ applyAll parse c (a ++ b) = applyAll parse (applyAll parse c a).1 b := by
  induction a generalizing c with
  | nil => exact ⟨rfl, rfl⟩
  | cons o a ih =>
    simp only [List.cons_append, applyAll] at h ⊢
    cases ho : apply parse c o with
    | none => simp [ho] at h
    | some c' =>
      simp only [ho] at h ⊢
      exact ih c' h

theorem applyAll_other {parse : Parse} {c : Conf} {b : List Opt} {f : Field} (h : (applyAll parse c b).2 = true)
    (hu : ∀ o ∈ b, o.isUrl = false) (hm : ∀ o ∈ b, means parse o f = none) (hf : f ≠ .connMaxLifetime) :
    (applyAll parse c b).1 f = c f := by
  induction b generalizing c with
  | nil => rfl
  | cons o b ih =>
    simp only [applyAll] at h ⊢
    cases ho : apply parse c o with
    | none => simp [ho] at h
    | some c' =>
      simp only [ho] at h ⊢
      rw [ih h (fun o h => hu o (List.mem_cons_of_mem _ h)) (fun o h => hm o (List.mem_cons_of_mem _ h)),
        apply_other ho (hu o List.mem_cons_self) (hm o List.mem_cons_self) hf]

theorem build_some {parse : Parse} {s : State} {opts : List Opt} {p : Bool} {c : Conf}
    (h : (build parse s opts p).2 = some c) :
    (applyAll parse s.conf opts).2 = true ∧ c = (applyAll parse s.conf opts).1 := by
  unfold build at h
  split at h
  · rename_i hok
    split at h
    · simp only [Option.some.injEq] at h; exact ⟨hok, h.symm⟩
    · cases h
  · cases h

/-- **C76**, effect, the part that holds: the setting an option gives is in the client if no URL and no option for
the same setting follows it. What is missing: a URL after other options, and the connect timeout. -/
theorem C76_effect_partial {parse : Parse} (hl : Lawful parse) {s : State} {a b : List Opt} {o : Opt} {p : Bool} {c : Conf}
    (h : (build parse s (a ++ o :: b) p).2 = some c) {f : Field} {v : Nat} (hm : means parse o f = some v)
    (hb : ∀ o' ∈ b, o'.isUrl = false ∧ means parse o' f = none) (hd : f ≠ .dialTimeout ∧ f ≠ .connMaxLifetime) : c f = v := by
  obtain ⟨h1, rfl⟩ := build_some h
  obtain ⟨h2, h3⟩ := applyAll_append _ _ _ _ h1
  rw [h3] at h1 ⊢
  simp only [applyAll] at h1 ⊢
  cases ho : apply parse (applyAll parse s.conf a).1 o with
  | none => simp [ho] at h1
  | some c' =>
    simp only [ho] at h1 ⊢
    rw [applyAll_other h1 (fun o h => (hb o h).1) (fun o h => (hb o h).2) hd.2]
    exact apply_sets hl ho hm (.inl hd.1)

/-- **C76**, independence, the part that holds: a client built with a URL does not depend on earlier builds, except
for its tracer. What is missing: clients built without a URL. -/
theorem C76_independent_partial {parse : Parse} {s s' : State} {opts : List Opt} {p p' : Bool} {c c' : Conf}
    (h : (build parse s opts p).2 = some c) (h' : (build parse s' opts p').2 = some c')
    (hu : ∃ o ∈ opts, o.isUrl = true) : ∀ f, f ≠ .tracer → c f = c' f := by
  obtain ⟨h1, rfl⟩ := build_some h
  obtain ⟨h2, rfl⟩ := build_some h'
  -- options that are applied to equal configurations give equal ones
  have congr : ∀ (b : List Opt) (d d' : Conf), (∀ f, f ≠ .tracer → d f = d' f) → (applyAll parse d b).2 = true →
      (applyAll parse d' b).2 = true → ∀ f, f ≠ .tracer → (applyAll parse d b).1 f = (applyAll parse d' b).1 f := by
    intro b
    induction b with
    | nil => intro d d' hd _ _; exact hd
    | cons o b ih =>
      intro d d' hd k k'
      simp only [applyAll] at k k' ⊢
      cases ho : apply parse d o with
      | none => simp [ho] at k
      | some e =>
        cases ho' : apply parse d' o with
        | none => simp [ho'] at k'
        | some e' =>
          simp only [ho, ho'] at k k' ⊢
          refine ih e e' ?_ k k'
          intro f hf
          cases o
          case withAddr url =>
            simp only [apply, Option.map_eq_some_iff] at ho ho'
            obtain ⟨q, hq, rfl⟩ := ho
            obtain ⟨q', hq', rfl⟩ := ho'
            rw [hq] at hq'
            cases hq'
            simp [hf]
          all_goals
            simp only [apply, Option.some.injEq] at ho ho'
            subst ho ho'
            simp only [upd_apply]
            split
            · rfl
            · exact hd f hf
  obtain ⟨o, ho, hou⟩ := hu
  obtain ⟨a, b, rfl⟩ := List.append_of_mem ho
  obtain ⟨-, e1⟩ := applyAll_append _ _ _ _ h1
  obtain ⟨-, e2⟩ := applyAll_append _ _ _ _ h2
  rw [e1] at h1 ⊢
  rw [e2] at h2 ⊢
  cases o <;> simp [Opt.isUrl] at hou
  rename_i url
  simp only [applyAll, apply] at h1 h2 ⊢
  cases hp : parse url with
  | none => simp [hp] at h1
  | some q =>
    simp only [hp, Option.map_some] at h1 h2 ⊢
    exact congr b _ _ (fun f hf => by simp [hf]) h1 h2

/-- A URL that gives an address. -/
def exParse : Parse := fun u => some fun f => if f = .addr then some u else none

theorem exParse_lawful : Lawful exParse := by
  intro u p h
  cases h
  rfl

/-- **C76** is violated: a URL after the pool size undoes it. -/
theorem C76_order_refuted : ∃ opts c, (build exParse init opts true).2 = some c ∧ ¬ Effective exParse opts c := by
  refine ⟨[.withPoolSize 5, .withAddr 7], _, rfl, ?_⟩
  intro h
  have := h [] (.withPoolSize 5) [.withAddr 7] .poolSize 5 rfl rfl (by simp [means, exParse])
  cases this

/-- **C76** is violated by every connect timeout: it is used as the life time of connections. -/
theorem C76_connect_refuted (parse : Parse) (s : State) (v : Nat) :
    ∃ c, (build parse s [.withConnectTimeOut v] true).2 = some c ∧ c .dialTimeout = s.conf .dialTimeout ∧
      c .connMaxLifetime = v := ⟨_, rfl, rfl, rfl⟩

/-- **C76** is violated: a client built without options has the pool size and the address of an earlier one. -/
theorem C76_independent_refuted : ∃ bs opts c, (build exParse (builds exParse init bs) opts true).2 = some c ∧
    ¬ Independent exParse opts c := by
  refine ⟨[([.withDomain 3, .withPoolSize 5], true)], [], _, rfl, ?_⟩
  intro h
  have := h .poolSize (by simp)
  cases this

/-- **C76** is violated: building a second client makes the first one open its next connections to the address of
the second. -/
theorem C76_shared_refuted : ∃ s c s', build exParse init [.withAddr 1] true = (s, some c) ∧ dials s 0 = some 1 ∧
    (build exParse s [.withAddr 2] true).1 = s' ∧ dials s' 0 = some 2 := ⟨_, _, _, rfl, rfl, rfl, rfl⟩

/-- Three options in the good order, after another client. -/
example : ∃ c, (build exParse (builds exParse init [([.withMinIdle 9], true)]) [.withTracer 1, .withAddr 7, .withPoolSize 5,
    .withMaxIdle 3] true).2 = some c ∧ c .poolSize = 5 ∧ c .maxIdle = 3 ∧ c .addr = 7 ∧ c .tracer = 1 ∧ c .minIdle = 0 :=
  ⟨_, rfl, rfl, rfl, rfl, rfl, rfl⟩

/-- **C76**, independence, the part that holds: in the first client that is built, without a URL, a setting that no option
gives has its default. What is missing: later clients, URLs, and the connect timeout. -/
theorem C76_first_partial {parse : Parse} {opts : List Opt} {p : Bool} {c : Conf}
    (h : (build parse init opts p).2 = some c) (hu : ∀ o ∈ opts, o.isUrl = false) {f : Field}
    (hm : ∀ o ∈ opts, means parse o f = none) (hf : f ≠ .connMaxLifetime) : c f = defaultOf f := by
  obtain ⟨h1, rfl⟩ := build_some h
  rw [applyAll_other h1 hu hm hf]
  cases f <;> rfl

example : ∃ c, (build exParse init [.withPoolSize 5, .withTracer 1] true).2 = some c ∧ c .minIdle = 128 :=
  ⟨_, rfl, C76_first_partial (parse := exParse) (opts := [.withPoolSize 5, .withTracer 1]) (p := true) rfl
    (by simp [Opt.isUrl]) (by simp [means]) (by simp)⟩

end Braid.Redis
