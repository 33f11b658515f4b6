import Verif.Reporter.Inv

/-
C59: how the reporter uses its sender.
-/
namespace Braid.Reporter
open Spec

variable {f : Nat → Bool}

/-- When the worker has returned. -/
structure SenderInv (h : List Ev) (s : State) : Prop where
  woken : ∀ g, s.woken g = true → s.worker = .fin
  sender : ∀ g, s.pc g = .sender → s.worker = .fin
  closed : ∀ g, .senderClosed g ∈ h → s.worker = .fin
  open_ : s.closed = false → s.worker ≠ .fin ∧ ∀ g, s.worker ≠ .close g
  queue : s.closed = false → ∀ g, .close g ∉ s.queue
  idle : s.closed = false → ∀ g, s.pc g = .idle
  seen : s.closed = true → ∃ g, .close g ∈ h

theorem senderInv_step {h : List Ev} {s s' : State} {a : Act} {evs : List Ev} (hi : SenderInv h s)
    (hs : step (some f) s a = some (s', evs)) :
    SenderInv (h ++ evs) s' ∧ (s.worker = .fin → .flush ∉ evs ∧ ∀ x, .delivered x ∉ evs) := by
  obtain ⟨h1, h2, h3, h4, h5, h6, h7⟩ := hi
  cases a
  all_goals simp only [step] at hs
  all_goals repeat' split at hs
  all_goals cases hs
  all_goals refine ⟨⟨?_, ?_, ?_, ?_, ?_, ?_, ?_⟩, ?_⟩
  all_goals try simp only [upd_apply, List.mem_append, List.mem_cons, List.not_mem_nil, or_false] at *
  all_goals grind

theorem senderInv_run {h : List Ev} {s : State} (hr : (sys (some f)).Run h s) : SenderInv h s := by
  refine hr.invariant (P := SenderInv) ?_ fun h s a s' evs _ hi hs => (senderInv_step hi hs).1
  constructor <;> simp [sys, init]

/-- C59: the sender is not used after it was closed: nothing is appended to it and it is not flushed. -/
theorem C59_sender_closed {p q : List Ev} {s : State} {g : Nat} (hr : (sys (some f)).Run (p ++ .senderClosed g :: q) s) :
    .flush ∉ q ∧ ∀ x, .delivered x ∉ q := by
  have key : ∀ e ∈ q, e ≠ .flush ∧ ∀ x, e ≠ .delivered x := by
    intro e he
    obtain ⟨q1, q2, rfl⟩ := List.append_of_mem he
    have hh : p ++ Ev.senderClosed g :: (q1 ++ e :: q2) = (p ++ Ev.senderClosed g :: q1) ++ e :: q2 := by simp
    obtain ⟨h0, s0, a, s1, pre, post, as, rest, hr0, hs, h5, -, -⟩ := hr.split_at hh
    obtain ⟨hi, hn⟩ := senderInv_step (senderInv_run hr0) hs
    by_cases hf : s0.worker = .fin
    · refine ⟨fun h => ?_, fun x h => ?_⟩ <;> subst h
      · exact (hn hf).1 (by simp)
      · exact (hn hf).2 x (by simp)
    · -- the sender was closed in this step, which does nothing else with it
      have h6 : .senderClosed g ∈ pre := by
        have : Ev.senderClosed g ∈ h0 ++ pre := by rw [← h5]; simp
        rcases List.mem_append.1 this with h | h
        · exact absurd ((senderInv_run hr0).closed g h) hf
        · exact h
      have h7 := (senderInv_run hr0).sender
      replace hs : step (some f) s0 a = some (s1, pre ++ e :: post) := hs
      generalize hE : pre ++ e :: post = E at hs
      have hm1 : Ev.senderClosed g ∈ E := by rw [← hE]; simp [h6]
      cases a
      all_goals simp only [step] at hs
      all_goals repeat' split at hs
      all_goals cases hs
      all_goals grind
  exact ⟨fun h => (key _ h).1 rfl, fun x h => (key _ h).2 x rfl⟩

/-- C59: as long as nobody closes the reporter the timer flushes the sender: at once, or after the span that the worker has in hand. -/
theorem C59_flush {h : List Ev} {s : State} (hr : (sys (some f)).Run h s) (hc : ∀ g, .close g ∉ h) :
    (∃ s', (sys (some f)).exec s [.tick] = some (s', [.flush])) ∨
      ∃ s' e, (sys (some f)).exec s [.work, .tick] = some (s', [e, .flush]) := by
  have hi := senderInv_run hr
  have hd := (invA_run hr).alive
  have ho : s.closed = false := by
    cases hcl : s.closed
    · rfl
    · obtain ⟨g, hg⟩ := hi.seen hcl
      exact absurd hg (hc g)
  cases hw : s.worker with
  | run => left; simp [Lts.exec, sys, step, hd, hw]
  | span x => right; simp [Lts.exec, sys, step, hd, hw]
  | close g => exact absurd hw ((hi.open_ ho).2 g)
  | fin => exact absurd hw (hi.open_ ho).1

example : ∃ h q s, (sys (some fun _ => true)).Run (h ++ .senderClosed 0 :: q) s ∧ .reported 5 true ∈ q ∧ .delivered 4 ∈ h :=
  ⟨[.reported 4 true, .delivered 4, .flush, .close 0, .flush], [.ret 0, .reported 5 true], _,
    Lts.run_of_exec (M := sys _) (as := [.report 4, .work, .work, .tick, .close 0, .go 0, .work, .work, .go 0, .go 0, .report 5]) rfl,
    by simp, by simp⟩

end Braid.Reporter
