import Verif.PubSub.Rest

/-
C39–C41: publish and subscribe.
-/
namespace Braid.PubSub
open Spec

/-! ### C39: delivery within a channel -/

/-- C39, order and "only what was published", "at most once" per subscriber: as long as no channel is created
again from the beginning of the stream, what a subscriber receives is a subsequence of what was published. The
runs are arbitrary: any number of channels, subscribers, publishers, crashes, closings, deletions of the
stream. -/
theorem C39_in_order_partial {h : List Ev} {s : State} (hr : sys.Run h s) (hso : StartOnce h) (c : Nat) :
    (deliveredTo c h).Sublist (pubs h) := by
  have hE := invE_run hr
  have hD := invD_run hr hso
  refine sublist_of_sorted _ _ ?_ hE.order ?_
  · have := hD.sorted c
    unfold flow at this
    exact (List.pairwise_append.1 this).1
  · intro x hx
    exact hD.pub c x (List.mem_append_left _ hx)

/-- C39, "at most one subscriber": two subscribers of a channel never receive the same publication. -/
theorem C39_one_subscriber_partial {h : List Ev} {s : State} (hr : sys.Run h s) (hso : StartOnce h) {c c' : Nat}
    {g : String} (hc : On c g h) (hc' : On c' g h) (hne : c ≠ c') {m m' : Msg} (hm : m ∈ deliveredTo c h)
    (hm' : m' ∈ deliveredTo c' h) : m.tag ≠ m'.tag := by
  have hD := invD_run hr hso
  exact hD.disj c c' hne ((hD.on c g hc).1.trans (hD.on c' g hc').1.symm) m (List.mem_append_left _ hm) m'
    (List.mem_append_left _ hm')

/-- Publications have different tags, so "the same message" in the theorems above means the same publication. -/
theorem C39_tags {h : List Ev} {s : State} (hr : sys.Run h s) : (pubs h).Pairwise (fun a b => a.tag < b.tag) :=
  (invE_run hr).order

/-- C39 in general fails: a channel that is closed between the delivery of a message and its deletion, and
subscribed again from the beginning, receives the message twice. -/
theorem C39_reopened_refuted : ∃ (h : List Ev) (s : State) (g : String) (c c' : Nat) (m : Msg), sys.Run h s ∧
    c ≠ c' ∧ On c g h ∧ On c' g h ∧ m ∈ deliveredTo c h ∧ m ∈ deliveredTo c' h :=
  ⟨_, _, "a", 0, 1, ⟨0, "e", []⟩,
    Lts.run_of_exec (M := sys) (as := [.sub 0 "a" false, .pub "e" [] 0, .read 0, .put 0, .handle 0,
      .close 0, .close 0, .close 0, .sub 1 "a" true, .read 1, .put 1, .handle 1]) rfl, by decide, by unfold On; decide, by unfold On; decide, by decide,
    by decide⟩

/-- A decidable form of `StartOnce`. -/
def startCheck : List Ev → List String → Bool
  | [], _ => true
  | .group g b :: h, seen => !(b && seen.contains g) && startCheck h (g :: seen)
  | _ :: h, seen => startCheck h seen

theorem startOnce_of_check {h : List Ev} (hc : startCheck h [] = true) : StartOnce h := by
  have key : ∀ (pre : List Ev) (seen : List String) (g : String) (post : List Ev),
      startCheck (pre ++ .group g true :: post) seen = true → g ∉ seen ∧ ∀ b, Ev.group g b ∉ pre := by
    intro pre
    induction pre with
    | nil => intro seen g post h; simp [startCheck] at h; exact ⟨h.1, by simp⟩
    | cons e pre ih =>
      intro seen g post h
      cases e with
      | group g' b' =>
        simp only [List.cons_append, startCheck, Bool.and_eq_true] at h
        have := ih _ _ _ h.2
        simp only [List.mem_cons, not_or] at this
        refine ⟨this.1.2, fun b hb => ?_⟩
        rcases List.mem_cons.1 hb with hb | hb
        · cases hb; exact this.1.1 rfl
        · exact this.2 b hb
      | _ =>
        simp only [List.cons_append, startCheck] at h
        have := ih _ _ _ h
        exact ⟨this.1, fun b hb => by
          rcases List.mem_cons.1 hb with hb | hb
          · cases hb
          · exact this.2 b hb⟩
  intro pre g post he
  exact (key pre [] g post (he ▸ hc)).2

/-- The example run: two channels, two subscribers on the first; three messages. -/
def exActs : List Act :=
  [.sub 0 "a" true, .sub 1 "a" false, .sub 2 "b" false, .pub "e" [1] 0, .pub "e" [2] 4, .read 0, .put 0, .put 0,
    .pub "f" [] 0, .read 2, .read 1, .put 1, .handle 1, .handle 0, .del 1 true, .del 0 false, .handle 0, .crash 1,
    .put 2, .put 2, .handle 2]

example : ∃ h s, sys.exec sys.init exActs = some (s, h) ∧ deliveredTo 0 h = [⟨0, "e", [1]⟩, ⟨1, "e", [2]⟩] ∧
    deliveredTo 1 h = [⟨2, "f", []⟩] ∧ deliveredTo 2 h = [⟨0, "e", [1]⟩] ∧ pubs h = [⟨0, "e", [1]⟩, ⟨1, "e", [2]⟩, ⟨2, "f", []⟩] ∧
    On 0 "a" h ∧ On 1 "a" h ∧ .group "a" true ∈ h ∧ StartOnce h :=
  ⟨_, _, rfl, by decide, by decide, by decide, by decide, by unfold On; decide, by unfold On; decide, by decide,
    startOnce_of_check (by decide)⟩

/-! ### C40: every channel receives every message -/

/-- C40, one channel: when a topic has one channel, and subscribers do not crash, groups are not removed and the
stream is not deleted, then from any state that can be reached the subscribers can only move messages a bounded
number of times, and once none can be moved, every message the channel has a right to was delivered on it. -/
theorem C40_delivered_partial {g : String} (hg : g ≠ "") {h : List Ev} {s : State} (hr : sys.Run h s)
    (ho : OneChannel g h) (hq : Quiet h) {m : Msg} (hd : Due g m h) :
    ∃ N, ∀ n s' k, Moves s n s' k → n ≤ N ∧ (Stuck s' → DeliveredOn g m (h ++ k)) := by
  obtain ⟨b, hb⟩ := bounded_on hr
  refine ⟨_, fun n s' k hm => ⟨moves_bound hr hb hm, fun hstuck => ?_⟩⟩
  have hr' := moves_run hr hm
  obtain ⟨ho', hq', hd'⟩ : OneChannel g (h ++ k) ∧ Quiet (h ++ k) ∧ Due g m (h ++ k) := by
    have hk := moves_events hm
    refine ⟨?_, ?_, ?_⟩
    · intro c g' he
      rcases List.mem_append.1 he with he | he
      · exact ho c g' he
      · obtain ⟨c, m, h'⟩ := hk _ he; cases h'
    · intro e he
      rcases List.mem_append.1 he with he | he
      · exact hq e he
      · obtain ⟨c, m, rfl⟩ := hk _ he; trivial
    · rcases hd with ⟨pre, post, b, rfl, hb⟩ | ⟨h1, h2⟩
      · exact .inl ⟨pre, post ++ k, b, by simp, hb⟩
      · exact .inr ⟨List.mem_append_left _ h1, List.mem_append_left _ h2⟩
  have hR := invR_run hg hr' ho' hq'
  have hrest : ∀ c, (s'.subs c).group = g → AtRest s' c := fun c hc => stuck_rest hstuck (hR.alive c hc).1
  rcases hR.kept m hd' with h | ⟨c, e, he, -⟩ | ⟨e, he, -, hle⟩
  · exact h
  · exfalso
    have hc := (hR.held c e (he.imp id .inl)).1
    obtain ⟨h1, h2, -⟩ := hrest c hc
    rw [h1, h2] at he
    rcases he with he | he <;> cases he
  · exfalso
    obtain ⟨c, hc⟩ : ∃ c, (s'.subs c).group = g := by
      rcases hd' with ⟨pre, post, b, heq, hb⟩ | ⟨-, hb⟩
      · exact some_sub hg hr' b (by rw [heq]; exact List.mem_append_left _ hb)
      · exact some_sub hg hr' true hb
    cases hl : s'.groups g with
    | none =>
      rcases hd' with ⟨pre, post, b, heq, hb⟩ | ⟨-, hb⟩
      · exact (hR.fresh hl).1 b (by rw [heq]; exact List.mem_append_left _ hb)
      · exact (hR.fresh hl).1 true hb
    | some l =>
      have h1 := hle l hl
      have h2 := (hrest c hc).2.2 l (by rw [hc]; exact hl) e he
      omega

/-- The example: one channel that reads from the beginning, two subscribers; the message was published before
the channel was created. -/
example : ∃ h s, sys.Run h s ∧ OneChannel "a" h ∧ Quiet h ∧ Due "a" ⟨0, "e", [1]⟩ h ∧ ¬ DeliveredOn "a" ⟨0, "e", [1]⟩ h := by
  refine ⟨_, _, Lts.run_of_exec (M := sys) (as := [.pub "e" [1] 0, .sub 0 "a" true, .sub 1 "a" false, .read 1]) rfl,
    ?_, ?_, .inr ⟨by decide, by decide⟩, ?_⟩
  · intro c g' h; simp at h; rcases h with h | h <;> exact h.2
  · intro e he
    simp only [List.mem_append, List.mem_cons, List.not_mem_nil, or_false] at he
    rcases he with he | (he | he) | he <;> subst he <;> trivial
  · rintro ⟨c, -, hc⟩; simp at hc

/-- The history of the witness below. -/
def goneH : List Ev := [.group "a" false, .sub 0 "a", .group "b" false, .sub 1 "b", .pub ⟨0, "e", []⟩,
  .deliver 0 ⟨0, "e", []⟩]

/-- C40 in general fails: the handler of one channel deletes a message from the stream before the other channel
read it; then, whatever happens later, it is never delivered on the other channel. -/
theorem C40_other_channel_refuted : ∃ (h : List Ev) (s : State) (g : String) (m : Msg), sys.Run h s ∧ Quiet h ∧
    (∃ c, On c g h) ∧ Due g m h ∧
    ∀ as s' k, sys.exec s as = some (s', k) → ¬ DeliveredOn g m (h ++ k) := by
  refine ⟨goneH, _, "b", ⟨0, "e", []⟩, Lts.run_of_exec (M := sys) (as := [.sub 0 "a" false, .sub 1 "b" false,
    .pub "e" [] 0, .read 0, .put 0, .handle 0, .del 0 true]) rfl, ?_, ⟨1, by unfold On; decide⟩,
    .inl ⟨[.group "a" false, .sub 0 "a", .group "b" false, .sub 1 "b"], [.deliver 0 ⟨0, "e", []⟩], false, rfl,
      by decide⟩, ?_⟩
  · intro e he
    simp [goneH] at he
    rcases he with he | he | he | he | he | he <;> subst he <;> trivial
  · intro as s' k hk
    refine not_delivered_of_gone ⟨by decide, fun e he => absurd he List.not_mem_nil, ?_, ?_⟩ hk
    · intro c hc
      have hd : ∀ m, Ev.deliver c m ∈ goneH → c = 0 := fun m hm => by simp [goneH] at hm; exact hm.1
      rcases c with _ | _ | c
      · exact absurd hc (by decide)
      · exact ⟨fun e he => absurd he List.not_mem_nil, fun e he => absurd he List.not_mem_nil,
          fun m hm => absurd (hd m hm) (by decide)⟩
      · exact ⟨fun e he => absurd he List.not_mem_nil, fun e he => absurd he List.not_mem_nil,
          fun m hm => absurd (hd m hm) (by omega)⟩
    · intro c g' h
      simp only [goneH, List.mem_cons, Ev.sub.injEq, reduceCtorEq, false_or, or_false, List.not_mem_nil] at h
      rcases h with ⟨rfl, rfl⟩ | ⟨rfl, rfl⟩ <;> decide

/-- C40 without crashes is needed: what a subscriber read and had not handled when it crashed is not delivered to
another subscriber of its channel. -/
theorem C40_crash_refuted : ∃ (h : List Ev) (s : State) (g : String) (m : Msg), sys.Run h s ∧ OneChannel g h ∧
    (∀ g', .destroyed g' ∉ h) ∧ .dropped ∉ h ∧ (∃ c, On c g h ∧ .crash c ∉ h) ∧ Due g m h ∧
    ∀ n s' k, Moves s n s' k → ¬ DeliveredOn g m (h ++ k) := by
  have hr : sys.Run _ _ := Lts.run_of_exec (M := sys) (as := [.sub 0 "a" false, .sub 1 "a" false, .pub "e" [] 0,
    .read 0, .crash 0]) rfl
  refine ⟨_, _, "a", ⟨0, "e", []⟩, hr, ?_, by simp, by simp, ⟨1, by unfold On; decide, by decide⟩,
    .inl ⟨[.group "a" false, .sub 0 "a", .sub 1 "a"], [.crash 0], false, rfl, by decide⟩, ?_⟩
  · intro c g' h; simp at h; rcases h with h | h <;> exact h.2
  intro n s' k hk ⟨c, hc, hm⟩
  cases hk with
  | nil => simp at hm
  | @cons s s1 s2 a e1 e2 n ha hs _ =>
    exfalso
    cases a with
    | read c =>
      obtain ⟨l, hl, e, he, hle⟩ := ha
      match c with
      | 0 => simp [step, upd, sys, init] at hs
      | 1 =>
        simp [upd, unread, advance, sys, init] at hl he
        subst hl; subst he; simp at hle
      | c + 2 => simp [step, upd, sys, init, noSub] at hs
    | put c =>
      match c with
      | 0 => simp [step, upd, sys, init] at hs
      | 1 => simp [step, upd, sys, init] at hs
      | c + 2 => simp [step, upd, sys, init, noSub] at hs
    | handle c =>
      match c with
      | 0 => simp [step, upd, sys, init] at hs
      | 1 => simp [step, upd, sys, init] at hs
      | c + 2 => simp [step, upd, sys, init, noSub] at hs
    | del c ok =>
      match c with
      | 0 => simp [step, upd, sys, init] at hs
      | 1 => simp [step, upd, sys, init] at hs
      | c + 2 => simp [step, upd, sys, init, noSub] at hs
    | _ => exact ha

/-! ### C41: publishing reports errors -/

/-- The topic map after a sequence of subscriptions to topics. -/
def topics (subs : List String) : List String := subs.foldl sysSub []

theorem mem_topics (subs : List String) (t : String) : t ∈ topics subs ↔ t ∈ subs := by
  have : ∀ (subs acc : List String), t ∈ subs.foldl sysSub acc ↔ t ∈ acc ∨ t ∈ subs := by
    intro subs
    induction subs with
    | nil => simp
    | cons x subs ih =>
      intro acc
      rw [List.foldl_cons, ih]
      unfold sysSub
      split
      · rename_i hx
        constructor
        · rintro (h | h) <;> simp [h]
        · rintro (h | h)
          · exact .inl h
          · rcases List.mem_cons.1 h with rfl | h
            · exact .inl hx
            · exact .inr h
      · simp only [List.mem_cons]
        constructor
        · rintro ((h | h) | h) <;> simp [h]
        · rintro (h | h | h) <;> simp [h]
  simpa [topics] using this subs []

/-- C41 fails: `Pub` to a topic this process has not subscribed to panics for every event that is not empty. -/
theorem C41_unknown_topic_refuted (subs : List String) (redis : Bool) {topic event : String}
    (h : topic ∉ subs) (he : event ≠ "") : sysPub (topics subs) redis topic event = .panic := by
  simp [sysPub, he, mem_topics, h]

example : "chat" ∉ ["room", "room", "news"] ∧ "hello" ≠ "" := by decide

/-- C41, the part that holds: an empty event is an error; after a subscription to the topic `Pub` does not panic,
and succeeds iff Redis does. -/
theorem C41_errors_partial (subs : List String) (redis : Bool) (topic event : String) :
    (event = "" → sysPub (topics subs) redis topic event = .err) ∧
    (topic ∈ subs → sysPub (topics subs) redis topic event ≠ .panic ∧
      (event ≠ "" → (sysPub (topics subs) redis topic event = .ok ↔ redis = true))) := by
  refine ⟨fun he => by simp [sysPub, he], fun h => ⟨?_, fun he => ?_⟩⟩
  · simp only [sysPub, mem_topics, h]
    split <;> simp; split <;> simp
  · simp only [sysPub, mem_topics, h, he]
    cases redis <;> simp

example : "room" ∈ ["room", "news"] ∧ sysPub (topics ["room", "news"]) true "room" "e" = .ok ∧
    sysPub (topics ["room", "news"]) false "room" "e" = .err := by decide

end Braid.PubSub
