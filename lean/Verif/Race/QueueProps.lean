import Verif.Race.QueueLemmas
import Verif.Actor.Props

/-
C112: the plain variables of mailboxes.
-/
namespace Braid.Race
open Braid

/-- **C112** for the queue alone: with any number of producers and one consumer no plain variable of the queue is raced
for. -/
theorem C112_queue {V : Type} {h : List (Mpsc.Ev V)} {s : Mpsc.St V} (hr : (Mpsc.sys V).Run h s) (a b : Mpsc.Act V) :
    ¬ RaceAt (Mpsc.sys V) qwho qacc s a b := by
  rintro ⟨s1, e1, s2, e2, h1, h2, hw, x, hx, y, hy, hv, _⟩
  cases a with
  | push p v =>
    have hc : s1.cons = s.cons := (Mpsc.step_push h1).2.2.2.2.1
    have hf : s1.fresh = s.fresh + 1 := by
      simp only [Mpsc.sys, Mpsc.step] at h1
      split at h1 <;> cases h1; rfl
    simp only [qacc, List.mem_singleton] at hx
    subst hx
    cases b with
    | push q w =>
      simp only [qacc, List.mem_singleton] at hy
      subst hy
      simp only [QVar.val.injEq] at hv; omega
    | cons =>
      simp only [qacc, hc] at hy
      split at hy
      · simp at hy; subst hy; cases hv
      · rename_i n hn
        have := take_lt hr hn
        simp at hy
        rcases hy with rfl | rfl
        · cases hv
        · simp only [QVar.val.injEq] at hv; omega
      · simp at hy
    | _ => simp [qacc] at hy
  | cons =>
    have hf : s1.fresh = s.fresh := by
      simp only [Mpsc.sys, Mpsc.step, Mpsc.stepCons] at h1
      repeat' split at h1
      all_goals (cases h1 <;> rfl)
    cases b with
    | push q w =>
      simp only [qacc, List.mem_singleton] at hy
      subst hy
      simp only [qacc] at hx
      split at hx
      · simp at hx; subst hx; cases hv
      · rename_i n hn
        have := take_lt hr hn
        simp at hx
        rcases hx with rfl | rfl
        · cases hv
        · simp only [QVar.val.injEq] at hv; omega
      · simp at hx
    | cons => exact hw rfl
    | _ => simp [qacc] at hy
  | _ => simp [qacc] at hx

/-- **C112**: the accesses are those of the model. A step that changes a plain variable of a queue is recorded as a write to
it. -/
theorem C112_writes {V : Type} {s s1 : Mpsc.St V} {a : Mpsc.Act V} {evs : List (Mpsc.Ev V)}
    (hs : (Mpsc.sys V).step s a = some (s1, evs)) :
    (s1.tail ≠ s.tail → ⟨.tail, true⟩ ∈ qacc s a) ∧
    ∀ n, (s1.heap n).val ≠ (s.heap n).val → ⟨.val n, true⟩ ∈ qacc s a := by
  cases a with
  | push p v =>
    simp only [Mpsc.sys, Mpsc.step] at hs
    split at hs <;> cases hs
    refine ⟨by simp, fun n hn => ?_⟩
    simp only [upd_apply] at hn
    split at hn
    · rename_i e; simp [qacc, e]
    · exact absurd rfl hn
  | prod p =>
    simp only [Mpsc.sys, Mpsc.step, Mpsc.stepProd] at hs
    split at hs <;> cases hs
    · simp
    · refine ⟨by simp, fun n hn => ?_⟩
      simp only [upd_apply] at hn
      split at hn
      · rename_i e; subst e; exact absurd rfl hn
      · exact absurd rfl hn
    · simp
    · simp
  | recv =>
    simp only [Mpsc.sys, Mpsc.step] at hs
    split at hs <;> cases hs
    simp
  | pop =>
    simp only [Mpsc.sys, Mpsc.step] at hs
    split at hs <;> cases hs <;> simp
  | cons =>
    simp only [Mpsc.sys, Mpsc.step, Mpsc.stepCons] at hs
    split at hs
    · cases hs
    · cases hs
    · split at hs <;> cases hs <;> simp
    · rename_i n hn
      cases hs
      refine ⟨by simp [qacc, hn], fun m hm => ?_⟩
      simp only [upd_apply] at hm
      split at hm
      · rename_i e; simp [qacc, hn, e]
      · exact absurd rfl hm
    · cases hs; simp
    · cases hs; simp

/-- **C112** for actors, what holds in every execution: the only plain variable of its two queues that an actor races for
is the end of the list that its loop takes messages from and the goroutine that waits for the queues to be empty looks at. -/
theorem C112_only_empty {self : String} {h : List Actor.Ev} {s : Actor.State} (hr : (Actor.sys self).Run h s)
    {a b : Actor.Act} (hrace : RaceAt (Actor.sys self) awho aacc s a b) :
    Actor.Ev.closing ∈ h ∧ ((a = .loop ∧ ∃ t, b = .check t) ∨ (b = .loop ∧ ∃ t, a = .check t)) := by
  obtain ⟨s1, e1, s2, e2, h1, h2, hw, x, hx, y, hy, hv, _⟩ := hrace
  have u1 := uses hr h1 hx
  have u2 := uses (hr.step h1) h2 hy
  have hk := Actor.invK_run hr
  have same : ∀ (_ : s1.mb.cons = s.mb.cons) (_ : s1.rq.cons = s.rq.cons) (_ : s1.loop = s.loop),
      aacc s1 .loop = aacc s .loop := by
    intro e1 e2 e3
    simp only [aacc, qacc, e1, e2, e3]
  cases u1 with
  | push p g1 g2 g3 g4 g5 =>
    cases u2 with
    | push q f1 => rw [g1, f1] at hv; simp at hv; omega
    | rpush q r f1 => rw [g1, f1] at hv; cases hv
    | pop f1 =>
      rw [same g4 (by rw [g3]) g5] at hy
      rcases loop_acc hr hy with f | f | ⟨n, f, hn⟩ | ⟨n, f, hn⟩ <;> rw [g1, f] at hv <;> simp at hv
      omega
    | rpop f1 =>
      rcases f1 with f1 | ⟨n, f1, _⟩ <;> rw [g1, f1] at hv <;> cases hv
    | check t f1 => rcases f1 with f1 | f1 <;> rw [g1, f1] at hv <;> cases hv
  | rpush p r g1 g2 g3 g4 g5 =>
    cases u2 with
    | push q f1 => rw [g1, f1] at hv; cases hv
    | rpush q r f1 => rw [g1, f1] at hv; simp at hv; omega
    | pop f1 =>
      rcases f1 with f1 | ⟨n, f1, _⟩ <;> rw [g1, f1] at hv <;> cases hv
    | rpop f1 =>
      rw [same (by rw [g3]) g4 g5] at hy
      rcases loop_acc hr hy with f | f | ⟨n, f, hn⟩ | ⟨n, f, hn⟩ <;> rw [g1, f] at hv <;> simp at hv
      omega
    | check t f1 => rcases f1 with f1 | f1 <;> rw [g1, f1] at hv <;> cases hv
  | pop g1 g2 g3 g4 =>
    cases u2 with
    | push q f1 =>
      rcases g1 with g1 | ⟨n, g1, hn⟩ <;> rw [g1, f1] at hv <;> simp at hv
      omega
    | rpush q r f1 => rcases g1 with g1 | ⟨n, g1, hn⟩ <;> rw [g1, f1] at hv <;> cases hv
    | pop => exact absurd rfl hw
    | rpop => exact absurd rfl hw
    | check t f1 f2 => exact ⟨hk.mem (g4 ▸ f2), .inl ⟨rfl, t, rfl⟩⟩
  | rpop g1 g2 g3 g4 =>
    cases u2 with
    | push q f1 => rcases g1 with g1 | ⟨n, g1, hn⟩ <;> rw [g1, f1] at hv <;> cases hv
    | rpush q r f1 =>
      rcases g1 with g1 | ⟨n, g1, hn⟩ <;> rw [g1, f1] at hv <;> simp at hv
      omega
    | pop => exact absurd rfl hw
    | rpop => exact absurd rfl hw
    | check t f1 f2 => exact ⟨hk.mem (g4 ▸ f2), .inl ⟨rfl, t, rfl⟩⟩
  | check t g1 g2 =>
    cases u2 with
    | push q f1 => rcases g1 with g1 | g1 <;> rw [g1, f1] at hv <;> cases hv
    | rpush q r f1 => rcases g1 with g1 | g1 <;> rw [g1, f1] at hv <;> cases hv
    | pop => exact ⟨hk.mem g2, .inr ⟨rfl, t, rfl⟩⟩
    | rpop => exact ⟨hk.mem g2, .inr ⟨rfl, t, rfl⟩⟩
    | check => exact absurd rfl hw

/-- **C112** for actors, the part that holds: until an actor begins to close, nobody races for a plain variable of its
queues. What is missing: an actor that closes. -/
theorem C112_open_partial {self : String} {h : List Actor.Ev} {s : Actor.State} (hr : (Actor.sys self).Run h s)
    (hc : Actor.Ev.closing ∉ h) (a b : Actor.Act) : ¬ RaceAt (Actor.sys self) awho aacc s a b :=
  fun hrace => hc (C112_only_empty hr hrace).1

/-- A message arrives while the actor is told to exit; the loop is in `Pop` when `checkClose` calls `Empty`. -/
def closeActs : List Actor.Act :=
  Actor.sendActs 0 Actor.m1 ++ [.exit 0, .select .shutdown, .select .mail, .loop, .loop]

/-- **C112** is violated: the loop is about to move the end of the queue (L58 of mpsc.go) when the goroutine `checkClose`
is about to read it (L71). The package says that `Empty` must be called by the consumer only (L67-69). -/
theorem C112_refuted : ∃ h s, (Actor.sys "a").Run h s ∧ RaceAt (Actor.sys "a") awho aacc s .loop (.check false) := by
  refine ⟨_, _, Lts.run_of_exec (M := Actor.sys "a") (as := closeActs) rfl, _, _, _, _, rfl, rfl, by decide,
    ⟨.mail .tail, true⟩, ?_, ⟨.mail .tail, false⟩, ?_, rfl, .inl rfl⟩
  · exact List.mem_cons_self ..
  · exact List.mem_cons_self ..

/-- An open actor whose loop is in `Pop` while another message is pushed. -/
example : ∃ h s, (Actor.sys "a").Run h s ∧ Actor.Ev.closing ∉ h ∧ aacc s .loop = [⟨.mail .tail, true⟩, ⟨.mail (.val 1), true⟩] ∧
    aacc s (.send 1) = [⟨.mail (.val 2), true⟩] := by
  refine ⟨_, _, Lts.run_of_exec (M := Actor.sys "a")
    (as := Actor.sendActs 0 Actor.m1 ++ [.select .mail, .loop, .loop, .recv 1 Actor.m2, .send 1, .send 1]) rfl, ?_, rfl, rfl⟩
  decide

/-- A queue whose consumer takes a value while producer 1 is about to push another one. -/
example : ∃ h s, (Mpsc.sys Nat).Run h s ∧ qacc s .cons = [⟨.tail, true⟩, ⟨.val 1, true⟩] ∧
    qacc s (.push 1 20) = [⟨.val 2, true⟩] :=
  ⟨_, _, Lts.run_of_exec (M := Mpsc.sys Nat) (as := [.push 0 10, .prod 0, .prod 0, .prod 0, .prod 0, .recv, .pop, .cons]) rfl,
    rfl, rfl⟩

end Braid.Race
