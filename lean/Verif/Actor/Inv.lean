import Verif.Actor.Lemmas

/-
Invariants of the actor.
-/
namespace Braid.Actor
open Spec

/-- The part of an event that concerns the mailbox. -/
def projQ : Ev → Option (Mpsc.Ev Msg)
  | .enter p id m => some (.pushInv p id m)
  | .accepted _ id _ => some (.pushRet id)
  | .poll => some .popInv
  | .nothing => some (.popRet none)
  | .start id m => some (.popRet (some (id, m)))
  | _ => none

/-- The part of an event that concerns the reentry queue. -/
def projR : Ev → Option (Mpsc.Ev Nat)
  | .renter p id r => some (.pushInv p id r)
  | .rentered id => some (.pushRet id)
  | .rpoll => some .popInv
  | .rnothing => some (.popRet none)
  | .actionStart id r => some (.popRet (some (id, r)))
  | _ => none

/-- Takes a step apart. -/
macro "step_cases" hs:ident : tactic => `(tactic| (
  simp only [step, stepSend, stepSelect, stepLoop, stepEnded, stepCheck] at $hs:ident
  <;> (repeat' split at $hs:ident) <;> (try cases $hs:ident)))

structure InvQ (h : List Ev) (s : State) : Prop where
  runQ : (Mpsc.sys Msg).Run (h.filterMap projQ) s.mb
  runR : (Mpsc.sys Nat).Run (h.filterMap projR) s.rq
  pushing : ∀ p id m, s.snd p = .pushing id m → (s.mb.prods p).id? = some id ∧ .enter p id m ∈ h
  notPushing : ∀ p, s.mb.prods p = .idle ∨ ∃ id m, s.snd p = .pushing id m
  got : s.loop = .got → s.mb.cons = .ready
  pop : s.loop = .pop → s.mb.cons.busy
  other : s.loop ≠ .got → s.loop ≠ .pop → s.mb.cons = .idle
  rgot : s.loop = .rgot → s.rq.cons = .ready
  rpop : s.loop = .rpop → s.rq.cons.busy
  rother : s.loop ≠ .rgot → s.loop ≠ .rpop → s.rq.cons = .idle

theorem invQ_init : InvQ [] init := by
  constructor <;> first
    | exact Lts.Run.init
    | simp [init, Mpsc.init]

theorem fm {V : Type} {f : Ev → Option (Mpsc.Ev V)} {h evs : List Ev} {q : Mpsc.St V}
    (hr : (Mpsc.sys V).Run (h.filterMap f) q) (he : evs.filterMap f = []) :
    (Mpsc.sys V).Run ((h ++ evs).filterMap f) q := by
  rw [List.filterMap_append, he, List.append_nil]; exact hr

theorem fmE {V : Type} {f : Ev → Option (Mpsc.Ev V)} {h evs : List Ev} {q : Mpsc.St V}
    {l : List (Mpsc.Ev V)} (hr : (Mpsc.sys V).Run (h.filterMap f ++ l) q) (he : evs.filterMap f = l) :
    (Mpsc.sys V).Run ((h ++ evs).filterMap f) q := by
  rw [List.filterMap_append, he]; exact hr

theorem run_push {h : List (Mpsc.Ev Msg)} {q q' : Mpsc.St Msg} {evs : List (Mpsc.Ev Msg)} {a : Mpsc.Act Msg}
    (hr : (Mpsc.sys Msg).Run h q) (hs : Mpsc.step q a = some (q', evs)) :
    (Mpsc.sys Msg).Run (h ++ evs) q' := hr.step (a := a) hs

theorem run_pushR {h : List (Mpsc.Ev Nat)} {q q' : Mpsc.St Nat} {evs : List (Mpsc.Ev Nat)} {a : Mpsc.Act Nat}
    (hr : (Mpsc.sys Nat).Run h q) (hs : Mpsc.step q a = some (q', evs)) :
    (Mpsc.sys Nat).Run (h ++ evs) q' := hr.step (a := a) hs

set_option maxHeartbeats 4000000 in
theorem invQ_step {self : String} {h : List Ev} {s s' : State} {a : Act} {evs : List Ev}
    (hi : InvQ h s) (hs : step self s a = some (s', evs)) : InvQ (h ++ evs) s' := by
  obtain ⟨rq, rr, i1, i2, i3, i4, i5, i6, i7, i8⟩ := hi
  cases a with
  | recv p m => step_cases hs <;> constructor <;> first
      | (exact fm rq rfl)
      | (exact fm rr rfl)
      | grind [upd_apply]
  | deliver p m => step_cases hs <;> constructor <;> first
      | (exact fm rq rfl)
      | (exact fm rr rfl)
      | grind [upd_apply]
  | send p =>
    step_cases hs
    · constructor <;> first
      | (exact fm rq rfl)
      | (exact fm rr rfl)
      | grind [upd_apply]
    · constructor <;> first
      | (exact fm rq rfl)
      | (exact fm rr rfl)
      | grind [upd_apply]
    · constructor <;> first
      | (exact fm rq rfl)
      | (exact fm rr rfl)
      | grind [upd_apply]
    · rename_i q _ _ _ hst
      have h1 := Mpsc.step_push hst
      have i2' : ∀ id0 m0 p', q.prods p' = .idle ∨ ∃ id m, upd s.snd p (.pushing id0 m0) p' = .pushing id m := by
        intro id0 m0 p'
        by_cases hp : p' = p
        · subst hp; exact .inr ⟨_, _, upd_same ..⟩
        · rw [upd_of_ne _ _ hp, h1.2.2.2.1 p' hp]; exact i2 p'
      have h2 := run_push rq hst
      obtain ⟨e1, h1⟩ := h1
      simp only [List.cons.injEq, Mpsc.Ev.pushInv.injEq, and_true] at e1
      obtain ⟨rfl, rfl, rfl⟩ := e1
      constructor <;> first
      | exact i2' _ _
      | (exact fmE h2 rfl)
      | (exact fm rr rfl)
      | grind [upd_apply]
    · rename_i hst
      have h1 := Mpsc.step_prod hst
      have h2 := run_push rq hst
      constructor <;> first
      | (exact fmE h2 rfl)
      | (exact fm rr rfl)
      | grind [upd_apply]
    · rename_i hp _ _ _ hst
      have h1 := Mpsc.step_prod hst
      have h2 := run_push rq hst
      constructor <;> first
      | (refine fmE h2 ?_; have := i1 _ _ _ hp; grind [projQ])
      | (exact fm rr rfl)
      | grind [upd_apply]
  | rpush p r =>
    step_cases hs
    rename_i hst
    have h1 := Mpsc.step_push hst
    have h2 := run_pushR rr hst
    obtain ⟨e1, h1⟩ := h1
    simp only [List.cons.injEq, Mpsc.Ev.pushInv.injEq, and_true] at e1
    obtain ⟨rfl, rfl, rfl⟩ := e1
    constructor <;> first
      | (exact fmE h2 rfl)
      | (exact fm rq rfl)
      | grind [upd_apply]
  | rsend p =>
    step_cases hs
    all_goals
      rename_i hst
      have h1 := Mpsc.step_prod hst
      have h2 := run_pushR rr hst
      constructor <;> first
      | (exact fm rq rfl)
      | (exact fmE h2 rfl)
      | grind [upd_apply]
  | tick t => step_cases hs <;> constructor <;> first
      | (exact fm rq rfl)
      | (exact fm rr rfl)
      | grind [upd_apply]
  | onEvent ev => step_cases hs <;> constructor <;> first
      | (exact fm rq rfl)
      | (exact fm rr rfl)
      | grind [upd_apply]
  | select c =>
    step_cases hs
    · constructor <;> first
      | (exact fm rq rfl)
      | (exact fm rr rfl)
      | grind [upd_apply]
    · rename_i hst
      have h1 := Mpsc.step_recv hst
      have h2 := run_push rq hst
      rw [h1.1] at h2
      constructor <;> first
      | (exact fmE h2 rfl)
      | (exact fm rr rfl)
      | grind [upd_apply]
    · rename_i hst
      have h1 := Mpsc.step_recv hst
      have h2 := run_pushR rr hst
      rw [h1.1] at h2
      constructor <;> first
      | (exact fm rq rfl)
      | (exact fmE h2 rfl)
      | grind [upd_apply]
    all_goals
      constructor <;> first
      | (exact fm rq rfl)
      | (exact fm rr rfl)
      | grind [upd_apply]
  | loop =>
    step_cases hs
    · constructor <;> first
      | (exact fm rq rfl)
      | (exact fm rr rfl)
      | grind [upd_apply]
    · constructor <;> first
      | (exact fm rq rfl)
      | (exact fm rr rfl)
      | grind [upd_apply]
    · rename_i hst
      have h1 := Mpsc.step_pop hst
      have h2 := run_push rq hst
      constructor <;> first
      | (exact fmE h2 rfl)
      | (exact fm rr rfl)
      | grind [upd_apply, Mpsc.CPc.busy]
    · rename_i hst
      have h1 := Mpsc.step_cons hst
      have h2 := run_push rq hst
      constructor <;> first
      | (exact fmE h2 rfl)
      | (exact fm rr rfl)
      | grind [upd_apply]
    · rename_i hst
      have h1 := Mpsc.step_cons hst
      have h2 := run_push rq hst
      constructor <;> first
      | (exact fmE h2 rfl)
      | (exact fm rr rfl)
      | grind [upd_apply]
    · rename_i hst
      have h1 := Mpsc.step_cons hst
      have h2 := run_push rq hst
      constructor <;> first
      | (exact fmE h2 rfl)
      | (exact fm rr rfl)
      | grind [upd_apply]
    · constructor <;> first
      | (exact fm rq rfl)
      | (exact fm rr rfl)
      | grind [upd_apply]
    · rename_i hst
      have h1 := Mpsc.step_pop hst
      have h2 := run_pushR rr hst
      constructor <;> first
      | (exact fm rq rfl)
      | (exact fmE h2 rfl)
      | grind [upd_apply, Mpsc.CPc.busy]
    all_goals
      rename_i hst
      have h1 := Mpsc.step_cons hst
      have h2 := run_pushR rr hst
      constructor <;> first
      | (exact fm rq rfl)
      | (exact fmE h2 rfl)
      | grind [upd_apply]
  | ended o => step_cases hs <;> constructor <;> first
      | (exact fm rq rfl)
      | (exact fm rr rfl)
      | grind [upd_apply]
  | check t => step_cases hs <;> constructor <;> first
      | (exact fm rq rfl)
      | (exact fm rr rfl)
      | grind [upd_apply]
  | exit x => step_cases hs <;> constructor <;> first
      | (exact fm rq rfl)
      | (exact fm rr rfl)
      | grind [upd_apply]
  | exitWait x => step_cases hs <;> constructor <;> first
      | (exact fm rq rfl)
      | (exact fm rr rfl)
      | grind [upd_apply]

theorem invQ_run {self : String} {h : List Ev} {s : State} (hr : (sys self).Run h s) : InvQ h s :=
  hr.invariant invQ_init fun _ _ _ _ _ _ hi hs => invQ_step hi hs

end Braid.Actor
