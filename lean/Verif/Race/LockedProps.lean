import Verif.Race.Locked
import Verif.Future.Props
import Verif.Unbounded.Inv

/-
C129: the plain variables of futures and of unbounded buffers.
-/
namespace Braid.Race
open Braid

variable {V T : Type}

/-! ### Futures -/

theorem futInvA {h : List (Future.Ev V)} {s : Future.St V} (hr : (Future.sys V).Run h s) : Future.InvA s :=
  hr.invariant (P := fun _ s => Future.InvA s) Future.invA_init fun _ _ _ _ _ _ hi hs => Future.invA_step hi (Future.step_tr hs)

/-- Who uses a variable of a future holds its lock, before and after. -/
theorem fut_locked {s s1 : Future.St V} {a : Future.Act V} {evs : List (Future.Ev V)} (hs : (Future.sys V).step s a = some (s1, evs))
    {x : Acc FutVar} (hx : x ∈ futAcc s a) : ∃ t f, futWho a = some t ∧ (x.var = .result f ∨ x.var = .callbacks f) ∧
      (s.pc t).inside = some f ∧ (s1.pc t).inside = some f := by
  cases a with
  | next t =>
    refine ⟨t, ?_⟩
    replace hs : Future.stepNext s t = some (s1, evs) := hs
    cases hp : s.pc t
    all_goals simp only [Future.stepNext, futAcc, hp] at hs hx
    all_goals try (simp only [List.not_mem_nil] at hx; done)
    all_goals repeat' split at hs
    all_goals cases hs
    all_goals try simp only [List.mem_cons, List.not_mem_nil, or_false] at hx
    all_goals simp [futWho, Future.setPc, Future.setFut, Future.spawn, Future.Pc.inside]
    all_goals grind
  | _ => simp [futAcc] at hx

/-- **C129**, futures: no two goroutines race for the result or the callbacks of a future. -/
theorem C129_future {h : List (Future.Ev V)} {s : Future.St V} (hr : (Future.sys V).Run h s) (a b : Future.Act V) :
    ¬ RaceAt (Future.sys V) futWho futAcc s a b := by
  rintro ⟨s1, e1, s2, e2, h1, h2, hw, x, hx, y, hy, hv, -⟩
  obtain ⟨t, f, ha, hf, -, hl⟩ := fut_locked h1 hx
  obtain ⟨u, g, hb, hg, hm, -⟩ := fut_locked h2 hy
  have hA : Future.InvA s1 := futInvA (hr.step h1)
  have : f = g := by
    rw [hv] at hf
    rcases hf with hf | hf <;> rcases hg with hg | hg <;> rw [hf] at hg <;> cases hg <;> rfl
  subst this
  have e1 := (hA.lk t f).1 hl
  have e2 := (hA.lk u f).1 hm
  rw [e1] at e2
  cases e2
  exact hw (ha.trans hb.symm)

/-- **C129**: the accesses to futures are those of the model. A step that changes the result or the callbacks of a future is recorded as
a write to it. -/
theorem C129_future_writes {h : List (Future.Ev V)} {s s1 : Future.St V} {a : Future.Act V} {evs : List (Future.Ev V)}
    (hr : (Future.sys V).Run h s) (hs : (Future.sys V).step s a = some (s1, evs)) (f : Nat) :
    ((s1.fut f).result ≠ (s.fut f).result → ⟨.result f, true⟩ ∈ futAcc s a) ∧
      ((s1.fut f).cbs ≠ (s.fut f).cbs → ⟨.callbacks f, true⟩ ∈ futAcc s a) := by
  have hfr := (futInvA hr).fresh
  have hin := (futInvA hr).inb
  cases a with
  | next t =>
    replace hs : Future.stepNext s t = some (s1, evs) := hs
    cases hp : s.pc t
    all_goals simp only [Future.stepNext, futAcc, hp] at hs ⊢
    all_goals repeat' split at hs
    all_goals cases hs
    all_goals simp only [Future.setPc, Future.setFut, Future.spawn, upd_apply]
    all_goals grind [Future.newFut]
  | new =>
    cases hs
    simp only [upd_apply]
    grind [Future.newFut]
  | isCompleted g => cases hs; simp
  | then_ u g =>
    simp only [Future.sys, Future.step] at hs
    repeat' split at hs
    all_goals cases hs
    simp only [Future.setPc, Future.setFut, upd_apply]
    grind
  | complete u g v =>
    simp only [Future.sys, Future.step] at hs
    repeat' split at hs
    all_goals cases hs
    simp only [Future.setPc, Future.setFut, upd_apply]
    grind

/-- Two goroutines complete one future and a third one adds a callback: the second `Complete` waits for the lock. -/
example : ∃ (h : List (Future.Ev Nat)) (s s1 : Future.St Nat), (Future.sys Nat).Run h s ∧ (Future.sys Nat).step s (.next (.inl 0)) = some (s1, []) ∧
    ⟨.result 0, true⟩ ∈ futAcc s (.next (.inl 0)) ∧ s.pc (.inl 1) = .idle ∧ (Future.sys Nat).step s1 (.complete 1 0 6) = none ∧
    (s.fut 0).cbs = [(0, 1)] :=
  ⟨[.then_ 0 0, .child 0 1, .complete (.inl 0) 0 5], _, _,
    Lts.run_of_exec (M := Future.sys Nat) (as := [.new, .then_ 2 0, .next (.inl 2), .next (.inl 2), .next (.inl 2), .complete 0 0 5,
      .next (.inl 0)]) rfl, rfl, by simp [futAcc, Future.setPc, Future.setFut], rfl, rfl, rfl⟩

/-! ### Unbounded buffers -/

/-- `Len` changes nothing, so that all that is known of buffers holds also with it. -/
theorem buf_inv {h : List (Unbounded.Ev T)} {s : Unbounded.St T} (hr : (bufSys T).Run h s) : Unbounded.Inv h s := by
  refine hr.invariant (P := Unbounded.Inv) Unbounded.inv_init fun h s a s' evs _ hi hs => ?_
  replace hs : bufStep s a = some (s', evs) := hs
  cases a with
  | op a => exact Unbounded.inv_step hi hs
  | len g =>
    simp only [bufStep] at hs
    split at hs <;> cases hs
    rw [List.append_nil]; exact hi

/-- Who uses the backlog in `Put` and `Load` holds the lock, before and after. -/
theorem buf_locked {s s1 : Unbounded.St T} {a : Unbounded.Act T} {evs : List (Unbounded.Ev T)}
    (hs : Unbounded.step s a = some (s1, evs)) {x : Acc Unit} (hx : x ∈ bufAcc s (.op a)) :
    (s.pc (bufWho (.op a))).outside = false ∧ (s1.pc (bufWho (.op a))).outside = false := by
  cases a with
  | next g =>
    replace hs : Unbounded.stepNext s g = some (s1, evs) := hs
    simp only [bufWho]
    cases hp : s.pc g
    all_goals simp only [Unbounded.stepNext, bufAcc, hp] at hs hx
    all_goals try (simp only [List.not_mem_nil] at hx; done)
    all_goals repeat' split at hs
    all_goals cases hs
    all_goals simp [Unbounded.Pc.outside]
  | _ => simp [bufAcc] at hx

/-- **C129**, buffers: no two goroutines race for the backlog in `Put`, `Load` and receiving, also if others call `Len`.
What is missing: `Len` itself (`C129_len_refuted`). -/
theorem C129_buffer_partial {h : List (Unbounded.Ev T)} {s : Unbounded.St T} (hr : (bufSys T).Run h s) (a b : Unbounded.Act T) :
    ¬ RaceAt (bufSys T) bufWho bufAcc s (.op a) (.op b) := by
  rintro ⟨s1, e1, s2, e2, h1, h2, hw, x, hx, y, hy, -, -⟩
  obtain ⟨-, hl⟩ := buf_locked h1 hx
  obtain ⟨hm, -⟩ := buf_locked h2 hy
  have hi := buf_inv (hr.step h1)
  have e1 := (hi.owner _).1 hl
  have e2 := (hi.owner _).1 hm
  rw [e1] at e2
  exact hw (Option.some.inj e2)

/-- **C129**: a step that changes the backlog is recorded as a write to it. -/
theorem C129_buffer_writes {s s1 : Unbounded.St T} {a : BufAct T} {evs : List (Unbounded.Ev T)}
    (hs : (bufSys T).step s a = some (s1, evs)) (hn : s1.backlog ≠ s.backlog) : ⟨(), true⟩ ∈ bufAcc s a := by
  replace hs : bufStep s a = some (s1, evs) := hs
  rcases a with (_ | _ | _ | g) | g
  all_goals simp only [bufStep, Unbounded.step] at hs
  case op.next =>
    cases hp : s.pc g
    all_goals simp only [Unbounded.stepNext, bufAcc, hp] at hs ⊢
    all_goals repeat' split at hs
    all_goals cases hs
    all_goals first | (exact absurd rfl hn) | simp
  all_goals repeat' split at hs
  all_goals cases hs
  all_goals exact absurd rfl hn

/-- **C129** is violated by `Len`, which reads the backlog without the lock: it races with the `Put` of the third value, whatever
the values are. -/
theorem C129_len_refuted (x y z : T) : ∃ h s, (bufSys T).Run h s ∧ RaceAt (bufSys T) bufWho bufAcc s (.op (.next 0)) (.len 1) := by
  refine ⟨[.put x, .put y, .put z], _, Lts.run_of_exec (M := bufSys T) (as := [.op (.put 0 x), .op (.next 0), .op (.next 0), .op (.next 0),
    .op (.put 0 y), .op (.next 0), .op (.next 0), .op (.next 0), .op (.next 0), .op (.put 0 z), .op (.next 0)]) rfl,
    _, _, _, _, rfl, rfl, by simp [bufWho], ⟨(), true⟩, ?_, ⟨(), false⟩, ?_, rfl, .inl rfl⟩
  · simp [bufAcc]
  · simp [bufAcc]

/-- The hypotheses hold: a `Put` and a `Load` want the lock at the same time. -/
example : ∃ (h : List (Unbounded.Ev Nat)) (s s1 : Unbounded.St Nat), (bufSys Nat).Run h s ∧
    (bufSys Nat).step s (.op (.next 0)) = some (s1, []) ∧ ⟨(), true⟩ ∈ bufAcc s (.op (.next 0)) ∧ s1.pc 1 = .got ∧
    (bufSys Nat).step s1 (.op (.load 1)) = none :=
  ⟨[.put 5, .put 6, .recv 5], _, _, Lts.run_of_exec (M := bufSys Nat) (as := [.op (.put 0 5), .op (.next 0), .op (.next 0), .op (.next 0),
    .op (.put 0 6), .op (.next 0), .op (.next 0), .op (.recv 1)]) rfl, rfl, by simp [bufAcc, upd_apply], rfl, rfl⟩

end Braid.Race
