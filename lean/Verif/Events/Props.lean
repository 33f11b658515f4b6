import Verif.Events.Lemmas

/-
Properties C68 and C70: event handlers and subscriptions of an actor, for every sequence of registrations,
subscriptions and messages.
-/
namespace Braid.Events

/-- **C70**, registration: `OnEvent` succeeds iff the event has no handler yet. -/
theorem C70_register {h : List Ev} {s : State} (hr : sys.Run h s) : RegistersOnce h := by
  intro h1 ev f ok h2 he
  obtain ⟨h0, s0, a, s1, pre, post, as, rest, r0, st, e1, e2, ex⟩ := hr.split_at he
  replace st : step s0 a = some (s1, pre ++ .onEvent ev f ok :: post) := st
  have i := inv_run r0
  cases a with
  | onEvent e g =>
    simp only [step, Option.some.injEq, Prod.mk.injEq] at st
    obtain ⟨-, hp⟩ := st
    rcases pre with _ | ⟨y, pre⟩ <;> simp at hp
    obtain ⟨⟨rfl, rfl, rfl⟩, rfl⟩ := hp
    simp only [List.append_nil] at e1
    subst e1
    rw [← i.chains, onEvent]
    cases find s0.chains e <;> simp
  | sub t c g b =>
    simp only [step, Option.some.injEq, Prod.mk.injEq] at st
    obtain ⟨-, hp⟩ := st
    rcases pre with _ | ⟨y, pre⟩ <;> simp at hp
  | push m =>
    simp only [step, Option.some.injEq, Prod.mk.injEq] at st
    obtain ⟨-, hp⟩ := st
    rcases pre with _ | ⟨y, pre⟩ <;> simp at hp
  | dispatch =>
    simp only [step] at st
    split at st
    · cases st
    · split at st <;> simp only [Option.some.injEq, Prod.mk.injEq] at st <;> obtain ⟨-, hp⟩ := st <;>
        rcases pre with _ | ⟨y, pre⟩ <;> simp at hp

/-- **C70**, messages: each is given to the handler registered first for its event, or to none if there is none;
a later registration changes nothing. -/
theorem C70_dispatch {h : List Ev} {s : State} (hr : sys.Run h s) : Dispatches h := by
  constructor
  · intro h1 m f h2 he
    obtain ⟨h0, s0, a, s1, pre, post, as, rest, r0, st, e1, e2, ex⟩ := hr.split_at he
    replace st : step s0 a = some (s1, pre ++ .handled m f :: post) := st
    have i := inv_run r0
    cases a <;> simp only [step] at st
    case dispatch =>
      split at st
      · cases st
      · rename_i m' q hq
        split at st <;> simp only [Option.some.injEq, Prod.mk.injEq] at st <;> obtain ⟨-, hp⟩ := st <;>
          rcases pre with _ | ⟨y, pre⟩ <;> simp at hp
        rename_i g hg
        obtain ⟨⟨rfl, rfl⟩, rfl⟩ := hp
        simp only [List.append_nil] at e1
        subst e1
        rw [← i.chains]; exact hg
    all_goals
      simp only [Option.some.injEq, Prod.mk.injEq] at st
      obtain ⟨-, hp⟩ := st
      rcases pre with _ | ⟨y, pre⟩ <;> simp at hp
  · intro h1 m h2 he
    obtain ⟨h0, s0, a, s1, pre, post, as, rest, r0, st, e1, e2, ex⟩ := hr.split_at he
    replace st : step s0 a = some (s1, pre ++ .unhandled m :: post) := st
    have i := inv_run r0
    cases a <;> simp only [step] at st
    case dispatch =>
      split at st
      · cases st
      · rename_i m' q hq
        split at st <;> simp only [Option.some.injEq, Prod.mk.injEq] at st <;> obtain ⟨-, hp⟩ := st <;>
          rcases pre with _ | ⟨y, pre⟩ <;> simp at hp
        rename_i hg
        obtain ⟨rfl, rfl⟩ := hp
        simp only [List.append_nil] at e1
        subst e1
        rw [← i.chains]; exact hg
    all_goals
      simp only [Option.some.injEq, Prod.mk.injEq] at st
      obtain ⟨-, hp⟩ := st
      rcases pre with _ | ⟨y, pre⟩ <;> simp at hp

/-- **C70**, messages: each message put into the queue is taken at most once and in order, and as long as some
were not taken the actor can take the next one. -/
theorem C70_once {h : List Ev} {s : State} (hr : sys.Run h s) :
    ∃ rest, pushes h = taken h ++ rest ∧ (rest ≠ [] → ∃ s' e, step s .dispatch = some (s', [e]) ∧
      taken (h ++ [e]) = taken h ++ rest.take 1) := by
  refine ⟨s.q, (inv_run hr).queue, ?_⟩
  intro hq
  rcases hs : s.q with _ | ⟨m, q⟩
  · exact absurd hs hq
  · cases hf : find s.chains m.event with
    | some f => exact ⟨{ s with q }, .handled m f, by simp [step, hs, hf], by simp [taken]⟩
    | none => exact ⟨{ s with q }, .unhandled m, by simp [step, hs, hf], by simp [taken]⟩

/-- **C68**, the part that holds: the callback handles the messages of its channel that were published with the
name of the channel as event, if it was the first to be offered for that name. What is missing: messages with
other events, and channels whose name already has a handler. -/
theorem C68_partial {h h1 h2 : List Ev} {s : State} {t c : String} {f : Nat} (hr : sys.Run h s)
    (he : h = h1 ++ .sub t c f true :: h2) (hf : first c h1 = none) :
    (∀ m g, m.event = c → Ev.handled m g ∈ h2 → g = f) ∧ ∀ m, m.event = c → Ev.unhandled m ∉ h2 := by
  have hd := C70_dispatch hr
  have key : ∀ a, first c (h1 ++ .sub t c f true :: a) = some f := by
    intro a
    rw [show h1 ++ .sub t c f true :: a = (h1 ++ [.sub t c f true]) ++ a by simp, first_append, first_append,
      first_single, hf]
    simp [offer]
  constructor
  · intro m g hm hg
    obtain ⟨a, b, rfl⟩ := List.append_of_mem hg
    have := hd.1 (h1 ++ .sub t c f true :: a) m g b (by rw [he]; simp)
    rw [hm, key] at this
    simpa using this.symm
  · intro m hm hg
    obtain ⟨a, b, rfl⟩ := List.append_of_mem hg
    have := hd.2 (h1 ++ .sub t c f true :: a) m b (by rw [he]; simp)
    rw [hm, key] at this
    cases this

/-- **C68** is violated: a message published with another event than the name of the channel reaches the actor
that subscribed to the channel and is dropped. -/
theorem C68_event_refuted : ∃ h s, sys.Run h s ∧ ¬ CallbackHandles h := by
  refine ⟨[.sub "t" "c" 0 true, .pushed ⟨0, some ("t", "c"), "e"⟩, .unhandled ⟨0, some ("t", "c"), "e"⟩], _,
    Lts.run_of_exec (M := sys) (as := [.sub "t" "c" 0 true, .push ⟨0, some ("t", "c"), "e"⟩, .dispatch]) rfl, ?_⟩
  intro hc
  exact (hc "t" "c" 0 [] _ rfl).2 ⟨0, some ("t", "c"), "e"⟩ rfl (by simp)

/-- **C68** is violated: if the name of the channel already has a handler, `Sub` returns no error and the other
handler gets the messages; here the channels of two topics have one name. -/
theorem C68_name_refuted : ∃ h s, sys.Run h s ∧ ¬ CallbackHandles h ∧
    (∀ m, Ev.pushed m ∈ h → ∃ t c, m.src = some (t, c) ∧ m.event = c) := by
  refine ⟨[.sub "t" "c" 0 true, .sub "u" "c" 1 true, .pushed ⟨0, some ("u", "c"), "c"⟩,
    .handled ⟨0, some ("u", "c"), "c"⟩ 0], _,
    Lts.run_of_exec (M := sys)
      (as := [.sub "t" "c" 0 true, .sub "u" "c" 1 true, .push ⟨0, some ("u", "c"), "c"⟩, .dispatch]) rfl, ?_, ?_⟩
  · intro hc
    have := (hc "u" "c" 1 [.sub "t" "c" 0 true] _ rfl).1 ⟨0, some ("u", "c"), "c"⟩ 0 rfl (by simp)
    cases this
  · intro m hm
    simp at hm
    subst hm
    exact ⟨_, _, rfl, rfl⟩

/-- A subscription whose callback gets the message, beside another event. -/
example : ∃ h s h1 h2, sys.Run h s ∧ h = h1 ++ .sub "t" "c" 1 true :: h2 ∧ first "c" h1 = none ∧
    Ev.handled ⟨0, some ("t", "c"), "c"⟩ 1 ∈ h2 ∧ Ev.onEvent "x" 2 false ∈ h2 :=
  ⟨[.onEvent "x" 0 true, .sub "t" "c" 1 true, .onEvent "x" 2 false, .pushed ⟨0, some ("t", "c"), "c"⟩,
    .handled ⟨0, some ("t", "c"), "c"⟩ 1], _, [.onEvent "x" 0 true], _, Lts.run_of_exec (M := sys)
    (as := [.onEvent "x" 0, .sub "t" "c" 1 true, .onEvent "x" 2, .push ⟨0, some ("t", "c"), "c"⟩, .dispatch]) rfl,
    rfl, rfl, by simp, by simp⟩

end Braid.Events
