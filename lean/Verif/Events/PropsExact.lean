import Verif.Events.Props

/-
Property C68: exactly which messages of a channel the callback of the subscription handles, for every sequence of
registrations, subscriptions and messages.
-/
namespace Braid.Events

/-- The event of a history is the one in which the message `m` is taken from the queue. -/
def Takes (m : Item) (e : Ev) : Prop := e = .unhandled m ∨ ∃ g, e = .handled m g

/-- **C68**, exactly: after a `Sub` of a channel `c` that returned no error, a message that is taken is handled by its
callback iff the message was published with the name of the channel and the name had no other handler when
`Sub` was called, or it was published with another event for which the callback itself was offered first. The topic plays
no part, nor does the channel that the message came from. -/
theorem C68_exact {h h1 a b : List Ev} {s : State} {t c : String} {f : Nat} {e : Ev} {m : Item} (hr : sys.Run h s)
    (he : h = h1 ++ .sub t c f true :: (a ++ e :: b)) (hm : Takes m e) :
    e = .handled m f ↔ (m.event = c ∧ ∀ g, first c h1 = some g → g = f) ∨
      (m.event ≠ c ∧ first m.event (h1 ++ a) = some f) := by
  have hd := C70_dispatch hr
  have he' : h = (h1 ++ .sub t c f true :: a) ++ e :: b := by rw [he]; simp
  have hkey : e = .handled m f ↔ first m.event (h1 ++ .sub t c f true :: a) = some f := by
    rcases hm with rfl | ⟨g, rfl⟩
    · have := hd.2 _ _ _ he'
      simp [this]
    · have := hd.1 _ _ _ _ he'
      simp [this]
  have hsplit : first m.event (h1 ++ .sub t c f true :: a) =
      (first m.event h1).or ((offer m.event (.sub t c f true)).or (first m.event a)) := by
    simp only [first, List.findSome?_append, List.findSome?_cons]
    cases offer m.event (.sub t c f true) <;> rfl
  have happ : first m.event (h1 ++ a) = (first m.event h1).or (first m.event a) := by
    simp [first, List.findSome?_append]
  rw [hkey, hsplit]
  by_cases hc : m.event = c
  · rw [hc]
    cases hf : first c h1 <;> simp [offer]
  · have : offer m.event (.sub t c f true) = none := by simp [offer, Ne.symm hc]
    rw [this, happ]
    simp [hc]

/-- **C68** is violated in every situation: whatever happened before, a message that is published on a channel with an
event that has no handler, and whose name is not the channel's, is dropped if it is the next in the queue, right after a
`Sub` of its channel that returned no error. -/
theorem C68_any_refuted {h : List Ev} {s : State} (hr : sys.Run h s) (hq : s.q = []) (t c ev : String) (f n : Nat)
    (hne : ev ≠ c) (hno : first ev h = none) :
    ∃ s', sys.Run (h ++ [.sub t c f true, .pushed ⟨n, some (t, c), ev⟩, .unhandled ⟨n, some (t, c), ev⟩]) s' ∧
      ¬ CallbackHandles (h ++ [.sub t c f true, .pushed ⟨n, some (t, c), ev⟩, .unhandled ⟨n, some (t, c), ev⟩]) := by
  have i := inv_run hr
  have r1 : sys.Run (h ++ [.sub t c f true]) _ := hr.step (a := .sub t c f true) rfl
  have r2 : sys.Run ((h ++ [.sub t c f true]) ++ [.pushed ⟨n, some (t, c), ev⟩]) _ :=
    r1.step (a := .push ⟨n, some (t, c), ev⟩) rfl
  have hf : find (sub s.chains c f true).1 ev = none := by
    rw [show (sub s.chains c f true).1 = _ from rfl, (inv_run r1).chains, first_append, hno, first_single]
    simp [offer, Ne.symm hne]
  have r3 : sys.Run (((h ++ [.sub t c f true]) ++ [.pushed ⟨n, some (t, c), ev⟩]) ++ [.unhandled ⟨n, some (t, c), ev⟩])
      ⟨(sub s.chains c f true).1, []⟩ :=
    r2.step (a := .dispatch) (by
      simp only [sys, step, hq, List.nil_append, hf])
  refine ⟨_, by simpa using r3, ?_⟩
  intro hc
  exact (hc t c f h _ rfl).2 ⟨n, some (t, c), ev⟩ rfl (by simp)

/-- A message with the name of the channel and one with another event, for which the same callback was registered. -/
example : ∃ h s h1 a b, sys.Run h s ∧ h = h1 ++ .sub "t" "c" 1 true :: (a ++ .handled ⟨1, some ("t", "c"), "e"⟩ 1 :: b) ∧
    Takes ⟨1, some ("t", "c"), "e"⟩ (.handled ⟨1, some ("t", "c"), "e"⟩ 1) ∧ first "e" (h1 ++ a) = some 1 :=
  ⟨[.sub "t" "c" 1 true, .onEvent "e" 1 true, .pushed ⟨0, some ("t", "c"), "c"⟩, .pushed ⟨1, some ("t", "c"), "e"⟩,
    .handled ⟨0, some ("t", "c"), "c"⟩ 1, .handled ⟨1, some ("t", "c"), "e"⟩ 1], _, [],
    [.onEvent "e" 1 true, .pushed ⟨0, some ("t", "c"), "c"⟩, .pushed ⟨1, some ("t", "c"), "e"⟩,
    .handled ⟨0, some ("t", "c"), "c"⟩ 1], [], Lts.run_of_exec (M := sys)
    (as := [.sub "t" "c" 1 true, .onEvent "e" 1, .push ⟨0, some ("t", "c"), "c"⟩, .push ⟨1, some ("t", "c"), "e"⟩,
      .dispatch, .dispatch]) rfl, rfl, .inr ⟨1, rfl⟩, rfl⟩

end Braid.Events
