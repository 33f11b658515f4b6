import Verif.Shutdown.Inv
import Verif.Shutdown.Timeline

/-
Properties C66 and C67: the shutdown of a node. The theorems on C66 quantify over all interleavings of the
shutdown with any number of actors, registrations and unregistrations; those on C67 over all timings.
-/
namespace Braid.Shutdown

/-! ## C66 -/

/-- **C66**, actors, the part that holds: when a graceful shutdown is reported all actors that were in the map
when the signal came have ended, whatever is registered or unregistered meanwhile. What is missing: actors
that are registered after the signal. -/
theorem C66_old_stopped_partial (c : Cfg) {h : List Ev} {s : State} (hr : (sys c).Run h s) : OldStopped h := by
  intro h1 h2 he a ha
  obtain ⟨h0, s0, x, s1, pre, post, as, rest, r0, st, e1, e2, ex⟩ := hr.split_at he
  have i := inv_run r0
  have : pre = [] ∧ s0.main = .wait ∧ s0.doneCh = true := by
    replace st : step c s0 x = some (s1, pre ++ Ev.graceful :: post) := st
    generalize hev : pre ++ Ev.graceful :: post = evs at st
    unfold step at st
    repeat' split at st
    all_goals first
      | cases st; done
      | skip
    all_goals (simp only [Option.some.injEq, Prod.mk.injEq] at st; obtain ⟨-, rfl⟩ := st)
    all_goals rcases pre with _ | ⟨y, pre⟩ <;> simp at hev
    simp_all
  obtain ⟨rfl, hm, hd⟩ := this
  simp only [List.append_nil] at e1
  subst e1
  rw [i.stopped]
  rcases i.snap (by simp [hm]) (by simp [hm]) a ha with h' | h'
  · rcases i.all (by simp [hm]) a h' with h'' | h''
    · have := (i.ch hd).1 a
      cases hg : s0.gx a with
      | no => exact absurd hg h''
      | ask => rw [hg] at this; cases this
      | wait => rw [hg] at this; cases this
      | fin => exact i.fin a hg
    · exact h''
  · exact h'

/-- **C66** is violated: an actor that is registered while the shutdown runs (here after the iteration over the
map) is not asked to exit, and a graceful shutdown is reported while it runs. -/
theorem C66_late_actor_refuted (c : Cfg) : ∃ h s, (sys c).Run h s ∧ ¬ AllStopped h ∧ ¬ RecordsGone h := by
  have hr : ∃ s, (sys ⟨false⟩).Run
      [.sig, .cleared, .regCall 0, .recorded 0, .put 0, .graceful] s := ⟨_, Lts.run_of_exec (M := sys ⟨false⟩)
    (as := [.sig, .acc, .endIter, .clear true, .regCall 0, .reg 0 true, .reg 0 true, .reg 0 true, .waiter, .select]) rfl⟩
  have hr' : ∃ s, (sys ⟨true⟩).Run
      [.sig, .accClosed, .cleared, .regCall 0, .recorded 0, .put 0, .graceful] s := ⟨_, Lts.run_of_exec (M := sys ⟨true⟩)
    (as := [.sig, .acc, .endIter, .clear true, .regCall 0, .reg 0 true, .reg 0 true, .reg 0 true, .waiter, .select]) rfl⟩
  obtain ⟨_ | _⟩ := c
  · obtain ⟨s, r⟩ := hr
    refine ⟨_, s, r, ?_, ?_⟩
    · intro hn; have := hn [.sig, .cleared, .regCall 0, .recorded 0, .put 0] [] rfl 0 (by simp); simp at this
    · intro hn; have := hn [.sig, .cleared, .regCall 0, .recorded 0, .put 0] [] rfl 0; simp [recorded, track] at this
  · obtain ⟨s, r⟩ := hr'
    refine ⟨_, s, r, ?_, ?_⟩
    · intro hn; have := hn [.sig, .accClosed, .cleared, .regCall 0, .recorded 0, .put 0] [] rfl 0 (by simp); simp at this
    · intro hn; have := hn [.sig, .accClosed, .cleared, .regCall 0, .recorded 0, .put 0] [] rfl 0
      simp [recorded, track] at this

/-- **C66**, acceptor: it is closed before the first actor is asked to exit. -/
theorem C66_acceptor_first (c : Cfg) (hc : c.acceptor = true) {h : List Ev} {s : State} (hr : (sys c).Run h s) :
    AcceptorFirst h := by
  intro h1 h2 a he
  obtain ⟨h0, s0, x, s1, pre, post, as, rest, r0, st, e1, e2, ex⟩ := hr.split_at he
  have i := inv_run r0
  have : pre = [] ∧ s0.gx a = .ask := by
    replace st : step c s0 x = some (s1, pre ++ Ev.ask a :: post) := st
    generalize hev : pre ++ Ev.ask a :: post = evs at st
    unfold step at st
    repeat' split at st
    all_goals first
      | cases st; done
      | skip
    all_goals (simp only [Option.some.injEq, Prod.mk.injEq] at st; obtain ⟨-, rfl⟩ := st)
    all_goals rcases pre with _ | ⟨y, pre⟩ <;> simp at hev
    simp_all
  obtain ⟨rfl, hg⟩ := this
  simp only [List.append_nil] at e1
  subst e1
  have hv := (i.vis a).2 (by rw [hg]; simp)
  refine i.acc hc ?_ ?_ <;>
  · intro hm
    rw [i.early (by simp [hm])] at hv
    cases hv

/-- After the address book was cleared it stays empty as long as nothing is recorded. -/
theorem recorded_none {h : List Ev} {a : Nat} (hn : Ev.recorded a ∉ h) :
    h.foldl (track a) false = false := by
  induction h with
  | nil => rfl
  | cons e h ih =>
    simp only [List.mem_cons, not_or] at hn
    rw [List.foldl_cons]
    have : track a false e = false := by
      cases e <;> simp [track]
      intro h'; subst h'; exact hn.1 rfl
    rw [this]; exact ih hn.2

/-- What is reported at the end comes after a signal and an attempt to clear the address book. -/
theorem graceful_after (c : Cfg) {h : List Ev} {s : State} (hr : (sys c).Run h s) :
    (s.main = .wait ∨ s.main = .done → Ev.clearFail ∈ h ∨ Earlier h .sig .cleared) ∧
    (s.main ≠ .idle → Ev.sig ∈ h) := by
  refine Lts.Run.invariant (P := fun h s => (s.main = .wait ∨ s.main = .done → Ev.clearFail ∈ h ∨ Earlier h .sig .cleared) ∧
    (s.main ≠ .idle → Ev.sig ∈ h)) ?_ ?_ hr
  · simp [sys, init]
  · intro h s x s' evs hr ⟨h1, h2⟩ hs
    replace hs : step c s x = some (s', evs) := hs
    have hE : ∀ evs, Earlier h .sig .cleared → Earlier (h ++ evs) .sig .cleared := by
      rintro evs ⟨a, b, e, hx⟩; exact ⟨a, b ++ evs, by rw [e]; simp, hx⟩
    have hN : Ev.sig ∈ h → Earlier (h ++ [.cleared]) .sig .cleared := fun hx => ⟨h, [], by simp, hx⟩
    unfold step at hs
    repeat' split at hs
    all_goals first
      | cases hs; done
      | skip
    all_goals (simp only [Option.some.injEq, Prod.mk.injEq] at hs; obtain ⟨rfl, rfl⟩ := hs)
    all_goals simp only [List.mem_append]
    all_goals grind

/-- **C66**, records, the part that holds: if clearing the address book did not fail and no record was written
after the signal, no record is left when a graceful shutdown is reported. What is missing: registrations during
the shutdown, and errors of the address book. -/
theorem C66_records_partial (c : Cfg) {h : List Ev} {s : State} (hr : (sys c).Run h s) (hl : NoLateRecord h)
    (hf : Ev.clearFail ∉ h) : RecordsGone h := by
  intro h1 h2 he a
  obtain ⟨h0, s0, x, s1, pre, post, as, rest, r0, st, e1, e2, ex⟩ := hr.split_at he
  have : pre = [] ∧ s0.main = .wait := by
    replace st : step c s0 x = some (s1, pre ++ Ev.graceful :: post) := st
    generalize hev : pre ++ Ev.graceful :: post = evs at st
    unfold step at st
    repeat' split at st
    all_goals first
      | cases st; done
      | skip
    all_goals (simp only [Option.some.injEq, Prod.mk.injEq] at st; obtain ⟨-, rfl⟩ := st)
    all_goals rcases pre with _ | ⟨y, pre⟩ <;> simp at hev
    simp_all
  obtain ⟨rfl, hm⟩ := this
  simp only [List.append_nil] at e1
  subst e1
  rcases (graceful_after c r0).1 (by simp [hm]) with h' | ⟨u, v, e, hs⟩
  · exact absurd (by rw [he]; simp [h']) hf
  · obtain ⟨u1, u2, hu⟩ := List.append_of_mem hs
    have hnr : Ev.recorded a ∉ v := by
      intro hx
      have := hl u1 (u2 ++ .cleared :: v ++ .graceful :: h2) (by rw [he, e, hu]; simp) a
      simp [hx] at this
    rw [e, recorded, List.foldl_append, List.foldl_cons]
    exact recorded_none hnr

/-- **C66** is violated: an error while clearing the address book is logged and a graceful shutdown is reported. -/
theorem C66_clear_refuted : ∃ h s, (sys ⟨true⟩).Run h s ∧ NoLateRecord h ∧ ¬ RecordsGone h := by
  refine ⟨[.regCall 0, .recorded 0, .put 0, .sig, .accClosed, .clearFail, .ask 0, .stopped 0, .exited 0, .graceful], _,
    Lts.run_of_exec (M := sys ⟨true⟩) (as := [.regCall 0, .reg 0 true, .reg 0 true, .reg 0 true, .sig, .acc, .visit 0,
      .endIter, .clear false, .gx 0, .stop 0, .gx 0, .waiter, .select]) rfl, ?_, ?_⟩
  · intro h1 h2 he a
    rcases h1 with _ | ⟨y1, _ | ⟨y2, _ | ⟨y3, _ | ⟨y4, h1⟩⟩⟩⟩ <;> simp at he
    · obtain ⟨-, -, -, rfl⟩ := he; simp
    · obtain ⟨-, -, -, -, he⟩ := he
      have : Ev.sig ∈ [Ev.accClosed, .clearFail, .ask 0, .stopped 0, .exited 0, .graceful] := by rw [he]; simp
      simp at this
  · intro hn
    have := hn [.regCall 0, .recorded 0, .put 0, .sig, .accClosed, .clearFail, .ask 0, .stopped 0, .exited 0] [] rfl 0
    simp [recorded, track] at this

/-- A shutdown crashes only for an actor that is unregistered as well. -/
theorem C66_crash_partial (c : Cfg) {h : List Ev} {s : State} (hr : (sys c).Run h s) (a : Nat)
    (hc : Ev.crash a ∈ h) : Ev.unregCall a ∈ h := by
  have := Lts.Run.invariant (M := sys c) (P := fun h s => (Ev.unregCall a ∈ h ↔ s.ux a ≠ .no) ∧
    (s.ux a = .no → s.gx a = .no ∨ s.gx a = .ask → s.shut a = false) ∧ (Ev.crash a ∈ h → Ev.unregCall a ∈ h) ∧
    (∀ b, b ∈ s.visited ↔ s.gx b ≠ .no)) (by simp [sys, init]) ?_ hr
  · exact this.2.2.1 hc
  · intro h s x s' evs hr ⟨h1, h2, h3, h4⟩ hs
    replace hs : step c s x = some (s', evs) := hs
    unfold step at hs
    repeat' split at hs
    all_goals first
      | cases hs; done
      | skip
    all_goals (simp only [Option.some.injEq, Prod.mk.injEq] at hs; obtain ⟨rfl, rfl⟩ := hs)
    all_goals simp only [List.mem_append, upd_apply]
    all_goals grind

/-- **C66** is violated: unregistering an actor during the shutdown closes its channel twice, which ends the
process. -/
theorem C66_crash_refuted : ∃ h s, (sys ⟨true⟩).Run h s ∧ Ev.crash 0 ∈ h ∧ Ev.graceful ∉ h := by
  refine ⟨[.regCall 0, .recorded 0, .put 0, .sig, .accClosed, .unregCall 0, .ask 0, .crash 0], _,
    Lts.run_of_exec (M := sys ⟨true⟩) (as := [.regCall 0, .reg 0 true, .reg 0 true, .reg 0 true, .sig, .acc, .visit 0,
      .unregCall 0, .gx 0, .unreg 0]) rfl, by simp, by simp⟩

/-- A graceful shutdown of a node with two actors, one of which is unregistered before. -/
example : ∃ h1 s, (sys ⟨true⟩).Run (h1 ++ [.graceful]) s ∧ Earlier h1 (.put 0) .sig ∧ Earlier h1 (.put 1) .sig ∧
    Ev.clearFail ∉ h1 ++ [.graceful] ∧ Ev.stopped 1 ∈ h1 := by
  refine ⟨[.regCall 0, .recorded 0, .put 0, .regCall 1, .recorded 1, .put 1, .unregCall 1, .stopped 1, .erased 1, .sig,
    .accClosed, .ask 0, .stopped 0, .exited 0, .cleared], _,
    Lts.run_of_exec (M := sys ⟨true⟩) (as := [.regCall 0, .reg 0 true, .reg 0 true, .reg 0 true, .regCall 1, .reg 1 true,
      .reg 1 true, .reg 1 true, .unregCall 1, .unreg 1, .stop 1, .unreg 1, .unreg 1, .unreg 1, .sig, .acc, .visit 0,
      .endIter, .gx 0, .stop 0, .gx 0, .clear true, .waiter, .select]) rfl, ?_, ?_, by simp, by simp⟩
  · exact ⟨[.regCall 0, .recorded 0, .put 0, .regCall 1, .recorded 1, .put 1, .unregCall 1, .stopped 1, .erased 1],
      _, rfl, by simp⟩
  · exact ⟨[.regCall 0, .recorded 0, .put 0, .regCall 1, .recorded 1, .put 1, .unregCall 1, .stopped 1, .erased 1],
      _, rfl, by simp⟩

/-! ## C67 -/

/-- **C67**, the part that holds: whatever the actors do, `WaitClose` returns within 30 seconds or as soon as
`sys.Exit` has returned. What is missing: an acceptor or an address book that takes longer. -/
theorem C67_bound_partial (l : Load) (a d : Nat) (ha : l.acc = some a) (hd : l.clear = some d) :
    ∃ t g, waitClose l = some (t, g) ∧ t ≤ max 30000 (a + d) := by
  have hdl : deadline = 30000 := rfl
  simp only [waitClose, exitReturns, ha, hd]
  split
  · exact ⟨_, _, rfl, by omega⟩
  · rename_i g _
    by_cases hg : g ≤ max (a + d) deadline
    · rw [if_pos hg]; exact ⟨_, _, rfl, by omega⟩
    · rw [if_neg hg]; exact ⟨_, _, rfl, by omega⟩

/-- **C67** is violated: a remote call that does not return keeps `GracefulStop` from returning, and the timeout
does not cover it. Whatever else happens the shutdown never ends. -/
theorem C67_pending_call_refuted (l : Load) (h : l.acc = none) : waitClose l = none := by
  simp [waitClose, exitReturns, h]

/-- **C67** is violated: the same if clearing the address book hangs (Redis, or its distributed mutex). -/
theorem C67_clear_refuted (l : Load) (h : l.clear = none) : waitClose l = none := by
  unfold waitClose exitReturns
  rw [h]; cases l.acc <;> simp

/-- **C67**, exactly: `WaitClose` returns within 30 seconds for all behaviours of the actors iff the acceptor and
the address book take no longer than that. -/
theorem C67_iff (acc clear : Option Nat) :
    (∀ exits, ∃ t g, waitClose ⟨acc, clear, exits⟩ = some (t, g) ∧ t ≤ 30000) ↔
      ∃ a d, acc = some a ∧ clear = some d ∧ a + d ≤ 30000 := by
  constructor
  · intro h
    obtain ⟨t, g, h1, h2⟩ := h [none]
    cases acc with
    | none => simp [waitClose, exitReturns] at h1
    | some a => cases clear with
      | none => simp [waitClose, exitReturns] at h1
      | some d =>
        refine ⟨a, d, rfl, rfl, ?_⟩
        simp [waitClose, exitReturns, actorsGone, later, deadline] at h1
        omega
  · rintro ⟨a, d, rfl, rfl, h⟩ exits
    obtain ⟨t, g, h1, h2⟩ := C67_bound_partial ⟨some a, some d, exits⟩ a d rfl rfl
    exact ⟨t, g, h1, by omega⟩

/-- An actor that never exits: the shutdown gives up after 30 seconds. -/
example : waitClose ⟨some 100, some 20, [some 5, none]⟩ = some (30000, false) := rfl

/-- Actors that exit in time. -/
example : waitClose ⟨some 100, some 20, [some 5, some 300]⟩ = some (400, true) := rfl

end Braid.Shutdown
