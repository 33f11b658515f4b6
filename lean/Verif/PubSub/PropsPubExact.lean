import Verif.PubSub.Props

/-
Property C41: exactly what `Pub` does, after any subscriptions.
-/
namespace Braid.PubSub

/-- C41, exactly: after any subscriptions `Pub` panics iff the event is not empty and nobody subscribed to the topic; it succeeds
iff the event is not empty, somebody subscribed to the topic and Redis succeeds; it returns an error in the other cases. -/
theorem C41_exact (subs : List String) (redis : Bool) (topic event : String) :
    (sysPub (topics subs) redis topic event = .panic ↔ event ≠ "" ∧ topic ∉ subs) ∧
    (sysPub (topics subs) redis topic event = .ok ↔ event ≠ "" ∧ topic ∈ subs ∧ redis = true) ∧
    (sysPub (topics subs) redis topic event = .err ↔ event = "" ∨ (topic ∈ subs ∧ redis = false)) := by
  obtain ⟨h1, h2⟩ := C41_errors_partial subs redis topic event
  by_cases he : event = ""
  · rw [h1 he]; simp [he]
  · by_cases ht : topic ∈ subs
    · obtain ⟨h3, h4⟩ := h2 ht
      have h4 := h4 he
      cases hr : sysPub (topics subs) redis topic event with
      | panic => exact absurd hr h3
      | ok => simp [he, ht, h4.1 hr]
      | err =>
        have : redis = false := by
          cases redis with
          | false => rfl
          | true => rw [hr] at h4; exact absurd (h4.2 rfl) (by simp)
        simp [he, ht, this]
    · simp [C41_unknown_topic_refuted subs redis ht he, he, ht]

/-- The three results. -/
example : sysPub (topics ["room"]) true "chat" "e" = .panic ∧ sysPub (topics ["room"]) true "room" "e" = .ok ∧
    sysPub (topics ["room"]) false "room" "e" = .err :=
  ⟨(C41_exact _ _ _ _).1.2 (by decide), (C41_exact _ _ _ _).2.1.2 (by decide), (C41_exact _ _ _ _).2.2.2 (by decide)⟩

end Braid.PubSub
