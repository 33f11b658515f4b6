import Verif.Share.Count

/-
C110: a message is handled under the event that it was sent with.
-/
namespace Braid.Share

/-- The full property: whatever an actor handles, it handles under an event with which that wrapper
was sent to that actor. -/
def HandledAsSent : Prop :=
  ∀ h s, sys.Run h s → NoLink h → ∀ h1 h2 a w e, h = h1 ++ .handled a w e :: h2 →
    ∃ g ev, e = some ev ∧ Ev.stamped g w a ev ∈ h1

/-- C110, exactly: the event under which a wrapper is handled is the one written last into its request
before it is handled, by a send, by a copied or by a removed header, through this wrapper or one
that shares the request; it need not be the event of the send that brought the wrapper there.
Missing: requests that were given a header object of the caller after their own was removed. -/
theorem C110_last_partial {h : List Ev} {s : State} (hr : sys.Run h s) (hn : NoLink h)
    {h1 h2 : List Ev} {a : String} {w : Nat} {e : Option String}
    (he : h = h1 ++ .handled a w e :: h2) : e = lastEvent (origin h1.reverse w) h1.reverse := by
  obtain ⟨s0, r0, hm, rfl⟩ := handled_at hr he
  have hw := wf_run r0
  have hn1 : NoLink h1 := by
    intro v p hm; exact hn v p (by rw [he]; exact List.mem_append_left _ hm)
  exact (ev_run r0 hn1).last w (hw.mail_lt a w hm)

/-- C110 for disciplined callers: if between a send of `w` and the handling of `w` (or of a wrapper
with the same request) no wrapper with that request is sent and none gets another header, then the
handler runs under the event of that send. -/
theorem C110_undisturbed_partial {h : List Ev} {s : State} (hr : sys.Run h s) (hn : NoLink h)
    {h1 h2 h3 : List Ev} {g w v : Nat} {a a' ev : String} {e : Option String}
    (he : h = h1 ++ .stamped g w a ev :: (h2 ++ .handled a' v e :: h3))
    (hsame : ∃ r, Uses (h1 ++ .stamped g w a ev :: h2) w r ∧ Uses (h1 ++ .stamped g w a ev :: h2) v r)
    (hu : ∀ x ∈ h2, ∀ u, touches x = some u →
      ∀ r, Uses (h1 ++ .stamped g w a ev :: h2) u r →
        ¬ Uses (h1 ++ .stamped g w a ev :: h2) w r) : e = some ev := by
  have he' : h = (h1 ++ .stamped g w a ev :: h2) ++ .handled a' v e :: h3 := by rw [he]; simp
  have hlast := C110_last_partial hr hn he'
  obtain ⟨s0, r0, hm, _⟩ := handled_at hr he'
  obtain ⟨r, hwr, hvr⟩ := hsame
  unfold Uses at hwr hvr hu
  rw [hlast, hvr]
  obtain ⟨k, sk, act, s1, pre, post, as, rest, rk, st, e1, e2, ex⟩ := r0.split_at rfl
  obtain ⟨hmono, hev⟩ := step_ev st
  rcases hev with h0 | ⟨x, hx, htx, _, _⟩
  · simp at h0
  · have hpp : pre = [] ∧ post = [] ∧ x = .stamped g w a ev := by
      cases pre with
      | nil =>
        simp only [List.nil_append, List.cons.injEq] at hx
        exact ⟨rfl, hx.2, hx.1.symm⟩
      | cons y t => simp at hx
    obtain ⟨rfl, rfl, rfl⟩ := hpp
    simp only [List.append_nil, List.nil_append] at e1 e2 st
    subst e1 e2
    have hlt : w < sk.nw := htx w rfl
    have hlt1 : w < s1.nw := Nat.lt_of_lt_of_le hlt hmono
    have r1 : sys.Run (h1 ++ [.stamped g w a ev]) s1 := rk.step st
    have happ : h1 ++ Ev.stamped g w a ev :: h2 = (h1 ++ [Ev.stamped g w a ev]) ++ h2 := by simp
    rw [happ] at hwr hvr hu ⊢
    have hor : origin (h1 ++ [Ev.stamped g w a ev]).reverse w = r := by
      rw [← hwr]; exact (org_exec ex hlt1).symm
    have hor0 : origin h1.reverse w = r := by
      rw [← hor]; exact (origin_concat (by simp) h1 w).symm
    refine last_exec ex ?_ ?_ ?_
    · rw [← hor]; exact (wf_run r1).org_lt w hlt1
    · exact lastEvent_write (by simp only [writes]; rw [if_pos hor0])
    · intro x hx u htu hour
      exact hu x hx u htu r hour hwr

/-- C110, deliveries: for every goroutine, wrapper and actor, the sends are the deliveries, the
refusals and the send under way; and what was put into the mailbox of an actor was handled by that
actor or is still there. -/
theorem C110_delivered {h : List Ev} {s : State} (hr : sys.Run h s) (g w : Nat) (a : String) :
    h.countP (isStamped g w a)
      = h.countP (isPushed g w a) + h.countP (isDropped g w a) + pending s g w a ∧
    h.countP (isQueued w a) = h.countP (isHandled w a) + (s.mail a).count w :=
  ⟨(counts_run hr).sent g w a, (counts_run hr).queued w a⟩

/-- C110, any two events: a wrapper sent to an actor and then, before that actor handles it, to
another one under another event is handled by the first under the second event. -/
theorem C110_overwritten (a b ev ev' : String) (hab : a ≠ b) :
    ∃ s, sys.Run [.made 0, .stamped 0 0 a ev, .pushed 0 0 a, .stamped 0 0 b ev', .pushed 0 0 b,
      .handled a 0 (some ev'), .handled b 0 (some ev')] s := by
  have hba : ¬ b = a := fun h => hab h.symm
  have key : ∃ s, sys.exec sys.init [.new none "m", .stamp 0 0 a "T" ev, .push 0,
      .stamp 0 0 b "T" ev', .push 0, .handle a, .handle b]
      = some (s, [.made 0, .stamped 0 0 a ev, .pushed 0 0 a, .stamped 0 0 b ev', .pushed 0 0 b,
        .handled a 0 (some ev'), .handled b 0 (some ev')]) := by
    simp [Lts.exec, sys, step, init, newWrapper, stamp, eventOf, upd_apply, hab, hba]
  obtain ⟨s, hs⟩ := key
  exact ⟨s, Lts.run_of_exec hs⟩

/-- C110, the same through `ReenterCall`: two calls made from one message go out in two wrappers that
share the request. -/
theorem C110_reenter (a b ev ev' : String) (hab : a ≠ b) :
    ∃ s, sys.Run [.made 0, .swapped 0 1, .stamped 1 1 a ev, .pushed 1 1 a, .swapped 0 2,
      .stamped 2 2 b ev', .pushed 2 2 b, .handled a 1 (some ev')] s := by
  have key : ∃ s, sys.exec sys.init [.new none "m", .swap 0, .stamp 1 1 a "T" ev, .push 1,
      .swap 0, .stamp 2 2 b "T" ev', .push 2, .handle a]
      = some (s, [.made 0, .swapped 0 1, .stamped 1 1 a ev, .pushed 1 1 a, .swapped 0 2,
        .stamped 2 2 b ev', .pushed 2 2 b, .handled a 1 (some ev')]) := by
    simp [Lts.exec, sys, step, init, newWrapper, swapWrapper, stamp, eventOf, upd_apply, hab]
  obtain ⟨s, hs⟩ := key
  exact ⟨s, Lts.run_of_exec hs⟩

/-- C110 as stated does not hold: the event is looked up in the header when the message is handled, and
a later send of the same wrapper has overwritten it by then. -/
theorem C110_refuted : ¬ HandledAsSent := by
  intro H
  obtain ⟨s, hr⟩ := C110_overwritten "a" "b" "login" "logout" (by decide)
  obtain ⟨g, ev, h1, h2⟩ := H _ _ hr (by intro w p; simp)
    [.made 0, .stamped 0 0 "a" "login", .pushed 0 0 "a", .stamped 0 0 "b" "logout",
      .pushed 0 0 "b"] [.handled "b" 0 (some "logout")] "a" 0 (some "logout") rfl
  cases h1
  simp at h2

/-- A run in which each wrapper is sent again only after it was handled. -/
example : ∃ s, sys.Run [.made 0, .stamped 0 0 "a" "x", .pushed 0 0 "a", .made 1,
    .stamped 1 1 "b" "z", .handled "a" 0 (some "x"), .stamped 0 0 "b" "y", .pushed 0 0 "b",
    .handled "b" 0 (some "y")] s :=
  ⟨_, Lts.run_of_exec (M := sys) (as := [.new none "m", .stamp 0 0 "a" "T" "x", .push 0, .new none "n",
    .stamp 1 1 "b" "T" "z", .handle "a", .stamp 0 0 "b" "T" "y", .push 0, .handle "b"]) rfl⟩

/-- The hypotheses of `C110_undisturbed_partial`, for the first send of that run: another request was
made and sent in between. -/
example : NoLink [.made 0, .stamped 0 0 "a" "x", .pushed 0 0 "a", .made 1, .stamped 1 1 "b" "z",
      .handled "a" 0 (some "x")] ∧
    (∃ r, Uses [.made 0, .stamped 0 0 "a" "x", .pushed 0 0 "a", .made 1, .stamped 1 1 "b" "z"] 0 r) ∧
    ∀ x ∈ [Ev.pushed 0 0 "a", .made 1, .stamped 1 1 "b" "z"], ∀ u, touches x = some u →
      ∀ r, Uses [.made 0, .stamped 0 0 "a" "x", .pushed 0 0 "a", .made 1, .stamped 1 1 "b" "z"] u r →
      ¬ Uses [.made 0, .stamped 0 0 "a" "x", .pushed 0 0 "a", .made 1, .stamped 1 1 "b" "z"] 0 r := by
  refine ⟨by intro w p; simp, ⟨0, rfl⟩, ?_⟩
  intro x hx u htu r h1 h2
  simp only [List.mem_cons, List.not_mem_nil, or_false] at hx
  rcases hx with rfl | rfl | rfl
  · simp [touches] at htu
  · simp [touches] at htu
  · simp only [touches, Option.some.injEq] at htu
    subst htu
    simp [Uses, origin] at h1 h2
    omega

/-- The event of a request after a header was copied into it, after it was removed, and for a wrapper
from `Swap`. -/
example : lastEvent 0 [.copied 0 { blank with event := "c" }, .made 0] = some "c" ∧
    lastEvent 0 [.cleared 0, .stamped 0 0 "a" "x", .made 0] = none ∧
    lastEvent 0 [.stamped 0 1 "a" "y", .swapped 0 1, .stamped 0 0 "a" "x", .made 0] = some "y" := by
  decide

end Braid.Share
