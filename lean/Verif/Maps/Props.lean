import Verif.Maps.Lemmas

/-
C99: no shared map is accessed while another goroutine writes to it.

Each theorem is about an arbitrary list of functions, each of which any number of goroutines calls any number of times, in
any interleaving.
-/
namespace Braid.Maps
open Spec

/-- The statement for a map and the functions that use it: they never race, whichever of them are called. -/
def C99 {F : Type} (paths : F → List (List Op)) : Prop := ∀ fs : List F, Safe (fs.flatMap paths)

/-! ### Maps that are guarded -/

/-- C99 for the local ids of the address book. -/
theorem C99_id_map : C99 BookFn.paths := fun fs =>
  (safe_fns _ (by intro f; cases f <;> decide) fs).2 (by intro f _ f' _; cases f <;> cases f' <;> decide)

/-- C99 for the topics. -/
theorem C99_topic_map : C99 TopicFn.paths := fun fs =>
  (safe_fns _ (by intro f; cases f <;> decide) fs).2 (by intro f _ f' _; cases f <;> cases f' <;> decide)

/-- C99 for the channels of a topic. -/
theorem C99_channel_map : C99 (fun _ : Unit => subPaths) := fun fs =>
  (safe_fns _ (by intro f; decide) fs).2 (by intro f _ f' _; decide)

/-! ### Maps that are not -/

/-- C99 for the actors of a node, exactly: it holds unless there are calls that change the map together with ones that
walk through it without the lock. -/
theorem C99_actors_partial (fs : List SysFn) :
    Safe (fs.flatMap SysFn.paths) ↔
      ¬ ((∃ f ∈ fs, f ∈ [.register false, .register true, .unregister]) ∧
        ∃ f ∈ fs, f ∈ [.register true, .actors, .exit]) :=
  safe_iff_sets _ (by intro f; cases f with | register u => cases u <;> decide | _ => decide) _ _
    (by
      intro f f'
      cases f with
      | register u => cases f' with | register v => cases u <;> cases v <;> decide | _ => cases u <;> decide
      | _ => cases f' with | register v => cases v <;> decide | _ => decide) fs

/-- Two goroutines that register actors of types that are unique on the node are enough. -/
theorem C99_actors_refuted : ¬ C99 SysFn.paths ∧ ¬ Safe (SysFn.paths (.register true)) := by
  have h : ¬ Safe ([SysFn.register true].flatMap SysFn.paths) := by
    rw [C99_actors_partial]; exact fun h => h (by simp)
  exact ⟨fun hc => h (hc _), by simpa using h⟩

/-- C99 for the tick tasks, exactly. -/
theorem C99_tasks_partial (fs : List TaskFn) :
    Safe (fs.flatMap TaskFn.paths) ↔
      ¬ ((∃ f ∈ fs, f ∈ [.add, .remove]) ∧ ∃ f ∈ fs, f ∈ [.all, .one, .stop]) :=
  safe_iff_sets _ (by intro f; cases f <;> decide) _ _ (by intro f f'; cases f <;> cases f' <;> decide) fs

/-- One goroutine that adds tasks and one that stops them are enough. -/
theorem C99_tasks_refuted : ¬ C99 TaskFn.paths ∧ ¬ Safe ([TaskFn.add, .stop].flatMap TaskFn.paths) := by
  have h : ¬ Safe ([TaskFn.add, .stop].flatMap TaskFn.paths) := by
    rw [C99_tasks_partial]; exact fun h => h (by simp)
  exact ⟨fun hc => h (hc _), h⟩

/-- C99 for the handlers of an actor, exactly: no handler may be added while messages can arrive (or by two goroutines). -/
theorem C99_chains_partial (fs : List ActorFn) : Safe (fs.flatMap ActorFn.chains) ↔ ActorFn.onEvent ∉ fs := by
  have := safe_iff_sets ActorFn.chains (by intro f; cases f <;> decide) (· = .onEvent) (· ∈ [.onEvent, .handle])
    (by intro f f'; cases f <;> cases f' <;> decide) fs
  rw [this]
  constructor
  · exact fun h hm => h ⟨⟨_, hm, rfl⟩, _, hm, by simp⟩
  · rintro h ⟨⟨f, hf, rfl⟩, -⟩; exact h hf

/-- A subscription with more than one goroutine about: the channel is connected first and may deliver before the handler
is stored. -/
theorem C99_chains_refuted : ¬ C99 ActorFn.chains ∧
    ∃ h s, (sys ([ActorFn.onEvent, .handle].flatMap ActorFn.chains)).Run h s ∧ Race h ∧
      ∃ h1, h = h1 ++ [.enter 0 .read, .enter 1 .write] :=
  ⟨fun hc => by
    have := hc [.onEvent]
    rw [C99_chains_partial] at this
    simp at this,
   _, _, Lts.run_of_exec (M := sys ([ActorFn.onEvent, .handle].flatMap ActorFn.chains))
      (as := [.start 1 [rd, wr], .run 1, .run 1, .start 0 [rd], .run 0, .run 1]) rfl,
   ⟨[.enter 1 .read, .leave 1], [], [], 0, .read, 1, .write, rfl, by decide, by simp, .inr rfl⟩,
   [.enter 1 .read, .leave 1], rfl⟩

/-- C99 for the timers of an actor, exactly: they may only be looked at, which no function does. -/
theorem C99_timers_partial (fs : List ActorFn) :
    Safe (fs.flatMap ActorFn.timers) ↔ ∀ f ∈ fs, f ∉ [.onTimer, .cancelTimer, .exit] := by
  have := safe_iff_sets ActorFn.timers (by intro f; cases f <;> decide) (· ∈ [.onTimer, .cancelTimer, .exit])
    (· ∈ [.onTimer, .cancelTimer, .exit]) (by intro f f'; cases f <;> cases f' <;> decide) fs
  rw [this]
  constructor
  · exact fun h f hf hm => h ⟨⟨f, hf, hm⟩, f, hf, hm⟩
  · rintro h ⟨⟨f, hf, hm⟩, -⟩; exact h f hf hm

/-- A handler that sets a timer while another goroutine makes the actor exit. -/
theorem C99_timers_refuted : ¬ C99 ActorFn.timers ∧ ¬ Safe ([ActorFn.onTimer, .exit].flatMap ActorFn.timers) := by
  have h : ¬ Safe ([ActorFn.onTimer, .exit].flatMap ActorFn.timers) := by
    rw [C99_timers_partial]; exact fun h => h .onTimer (by simp) (by simp)
  exact ⟨fun hc => h (hc _), h⟩

/-- C99 for the options of one builder, exactly: the map that `GetOptions` returns is read without the lock. -/
theorem C99_options_partial (fs : List OptFn) :
    Safe (fs.flatMap OptFn.own) ↔ ¬ (OptFn.withOpt ∈ fs ∧ OptFn.getOptions ∈ fs) := by
  have := safe_iff_sets OptFn.own (by intro f; cases f <;> decide) (· = .withOpt) (· = .getOptions)
    (by intro f f'; cases f <;> cases f' <;> decide) fs
  simpa using this

/-- C99 for the options of different builders of one type, exactly: they share the map but not the lock. -/
theorem C99_shared_options_partial (fs : List OptFn) : Safe (fs.flatMap OptFn.shared) ↔ OptFn.withOpt ∉ fs := by
  have := safe_iff_sets OptFn.shared (by intro f; cases f <;> decide) (· = .withOpt) (fun _ => True)
    (by intro f f'; cases f <;> cases f' <;> decide) fs
  rw [this]
  constructor
  · exact fun h hm => h ⟨⟨_, hm, rfl⟩, _, hm, trivial⟩
  · rintro h ⟨⟨f, hf, rfl⟩, -⟩; exact h hf

/-- `WithOpt` and `GetOptions` on one builder, `WithOpt` alone on two. -/
theorem C99_options_refuted : ¬ C99 OptFn.own ∧ ¬ C99 OptFn.shared ∧ ¬ Safe (OptFn.shared .withOpt) := by
  have h : ¬ Safe ([OptFn.withOpt].flatMap OptFn.shared) := by
    rw [C99_shared_options_partial]; simp
  refine ⟨fun hc => ?_, fun hc => h (hc _), by simpa using h⟩
  have := hc [.withOpt, .getOptions]
  rw [C99_options_partial] at this
  simp at this

/-- C99 for the list of versions, exactly: a strategy may not be registered while anything else goes on. -/
theorem C99_versions_partial (fs : List VerFn) : Safe (fs.flatMap VerFn.paths) ↔ VerFn.registerVersion ∉ fs := by
  have := safe_iff_sets VerFn.paths (by intro f; cases f <;> decide) (· = .registerVersion) (fun _ => True)
    (by intro f f'; cases f <;> cases f' <;> decide) fs
  rw [this]
  constructor
  · exact fun h hm => h ⟨⟨_, hm, rfl⟩, _, hm, trivial⟩
  · rintro h ⟨⟨f, hf, rfl⟩, -⟩; exact h hf

/-- The lock of the list is taken by the readers only. -/
theorem C99_versions_refuted : ¬ C99 VerFn.paths := fun hc => by
  have := hc [.registerVersion]
  rw [C99_versions_partial] at this
  simp at this

/-- C99 for the databases once `Build` has returned. -/
theorem C99_collections_partial : C99 MgoFn.paths := fun fs =>
  (safe_fns _ (by intro f; cases f <;> decide) fs).2 (by intro f _ f' _; cases f <;> cases f' <;> decide)

/-- While `Build` connects to any databases, a call of `Collection` races with it. -/
theorem C99_collections_refuted (n : Nat) (hn : n ≠ 0) : ¬ Safe (MgoFn.paths .collection ++ mgoBuild n) := by
  have hw : [wr] ∈ mgoBuild n := List.mem_map.2 ⟨1, List.mem_range.2 (by omega), rfl⟩
  have hb : ∀ m, bal .free (List.replicate m wr) = true := by
    intro m
    induction m with
    | zero => rfl
    | succ m ih => exact ih
  rw [safe_iff, Classical.not_not]
  · exact ⟨[.rlock, rd, .runlock], by simp [MgoFn.paths], [wr], by simp [hw], (.shared, .read), by decide, (.free, .write),
      by decide, rfl, .inr rfl⟩
  · intro p hp
    rcases List.mem_append.1 hp with h | h
    · clear hp; revert p; decide
    · obtain ⟨m, -, rfl⟩ := List.mem_map.1 h; exact hb m

/-! ### No deadlock -/

theorem live {F : Type} (paths : F → List (List Op)) (hp : ∀ f, ∀ p ∈ paths f, bal .free p = true) (fs : List F) :
    Live (fs.flatMap paths) := fun h s hr ⟨_, hg⟩ =>
  progress (run_inv (P := fs.flatMap paths) (by
    intro p hm
    obtain ⟨f, -, hm⟩ := List.mem_flatMap.1 hm
    exact hp f p hm) hr) hg

/-- Whatever functions are called, nobody is stuck in one for good. -/
theorem C99_no_deadlock :
    (∀ fs, Live (List.flatMap SysFn.paths fs)) ∧ (∀ fs, Live (List.flatMap BookFn.paths fs)) ∧
      (∀ fs, Live (List.flatMap TopicFn.paths fs)) ∧ (∀ fs, Live (List.flatMap TaskFn.paths fs)) ∧
      (∀ fs, Live (List.flatMap ActorFn.chains fs)) ∧ (∀ fs, Live (List.flatMap ActorFn.timers fs)) ∧
      (∀ fs, Live (List.flatMap OptFn.own fs)) ∧ (∀ fs, Live (List.flatMap VerFn.paths fs)) ∧
      (∀ fs, Live (List.flatMap MgoFn.paths fs)) ∧ Live subPaths := by
  refine ⟨live _ ?_, live _ ?_, live _ ?_, live _ ?_, live _ ?_, live _ ?_, live _ ?_, live _ ?_, live _ ?_, ?_⟩
  all_goals first
    | (intro f; cases f with | register u => cases u <;> decide | _ => decide)
    | (intro f; cases f <;> decide)
    | skip
  have := live (fun _ : Unit => subPaths) (by intro _; decide) [()]
  simpa using this

/-! ### The theorems apply -/

/-- Two goroutines register actors of a unique type at the same time: one stores its actor while the other looks for
actors of its type. -/
example : ∃ h s, (sys (SysFn.paths (.register true))).Run h s ∧ Race h :=
  ⟨_, _, Lts.run_of_exec (M := sys (SysFn.paths (.register true)))
    (as := [.start 0 [.lock, rd, .unlock, rd], .start 1 [.lock, rd, .unlock, rd, .lock, wr, .unlock],
      .run 0, .run 0, .run 0, .run 0, .run 1, .run 1, .run 1, .run 1, .run 1, .run 1, .run 1, .run 0, .run 1]) rfl,
   [.enter 0 .read, .leave 0, .enter 1 .read, .leave 1, .enter 1 .read, .leave 1], [], [], 0, .read, 1, .write, rfl,
   by decide, by simp, .inr rfl⟩

/-- Everything but these is fine together. -/
example : Safe ([SysFn.register false, .unregister, .call, .findActor].flatMap SysFn.paths) := by
  rw [C99_actors_partial]; simp

example : Safe ([SysFn.actors, .call, .findActor, .exit].flatMap SysFn.paths) := by
  rw [C99_actors_partial]; simp

example : Safe ([TaskFn.add, .remove].flatMap TaskFn.paths) := by rw [C99_tasks_partial]; simp

example : Safe ([OptFn.withOpt, .getOpt].flatMap OptFn.own) := by rw [C99_options_partial]; simp

example : Safe ([VerFn.getStrategy, .getNext].flatMap VerFn.paths) := by rw [C99_versions_partial]; simp

/-- The address book with one goroutine in its map and others that wait. -/
example : ∃ h s, (sys ([BookFn.register, .getByID].flatMap BookFn.paths)).Run h s ∧ s.writer = some 0 ∧
    s.ins 0 = some .write ∧ s.todo 1 = [.rlock, rd, .runlock] :=
  ⟨_, _, Lts.run_of_exec (M := sys ([BookFn.register, .getByID].flatMap BookFn.paths))
    (as := [.start 0 [.rlock, rd, .runlock, .lock, wr, .unlock], .start 1 [.rlock, rd, .runlock],
      .run 0, .run 0, .run 0, .run 0, .run 0, .run 0]) rfl, rfl, rfl, rfl⟩

end Braid.Maps
