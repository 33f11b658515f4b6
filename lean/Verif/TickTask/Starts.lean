import Verif.TickTask.Inv

/-
A start of a running task is without effect (helper lemmas): effective starts are at most one more than effective stops.
-/
namespace Braid.TickTask

theorem stops_append (a b : List Ev) : stops (a ++ b) = stops a + stops b := by simp [stops]

/-- Callers that hold the mutex. -/
def crit : CPc → Bool
  | .check => true
  | .set => true
  | .spawn => true
  | .unlock _ => true
  | _ => false

structure SInv (h : List Ev) (s : State) : Prop where
  held : ∀ p, crit (s.cl p) = true → s.mutex = true
  one : ∀ p q, crit (s.cl p) = true → crit (s.cl q) = true → p = q
  all : starts h ≤ 1 + stops h
  set : ∀ p, s.cl p = .set → starts h + 1 ≤ 1 + stops h
  spawn : ∀ p, s.cl p = .spawn → starts h + 1 ≤ 1 + stops h
  spawn' : ∀ p, s.cl p = .spawn → s.tstate ≠ .run → starts h + 2 ≤ 1 + stops h
  rest : s.tstate ≠ .run → (∀ p, s.cl p ≠ .set) → (∀ p, s.cl p ≠ .spawn) → starts h + 1 ≤ 1 + stops h

theorem sinv_init : SInv [] init := by
  constructor <;> simp [init, crit, starts, stops]

/-- Steps of others. -/
theorem SInv.frame {h : List Ev} {s s' : State} {evs : List Ev} (i : SInv h s) (h1 : s'.cl = s.cl) (h2 : s'.tstate = s.tstate)
    (h3 : s'.mutex = s.mutex) (e1 : starts evs = 0) (e2 : stops evs = 0) : SInv (h ++ evs) s' := by
  obtain ⟨a1, a2, a3, a4, a5, a6, a7⟩ := i
  constructor <;> (try simp only [starts_append, stops_append, h1, h2, h3, e1, e2, Nat.add_zero]) <;> assumption

theorem sinv_client {c : Cfg} {h : List Ev} {s s' : State} {p : Nat} {evs : List Ev} (i : SInv h s)
    (hs : client c s p = some (s', evs)) : SInv (h ++ evs) s' := by
  obtain ⟨a1, a2, a3, a4, a5, a6, a7⟩ := i
  unfold client at hs
  split at hs
  · cases hs
  · split at hs
    · cases hs
    · simp only [Option.some.injEq, Prod.mk.injEq] at hs; obtain ⟨rfl, rfl⟩ := hs
      constructor <;> (try simp only [starts_append, stops_append, upd_apply, List.append_nil]) <;> grind [crit]
  · split at hs <;> (simp only [Option.some.injEq, Prod.mk.injEq] at hs; obtain ⟨rfl, rfl⟩ := hs) <;>
      constructor <;> (try simp only [starts_append, stops_append, upd_apply, List.append_nil]) <;> grind [crit]
  · simp only [Option.some.injEq, Prod.mk.injEq] at hs; obtain ⟨rfl, rfl⟩ := hs
    constructor <;> (try simp only [starts_append, stops_append, upd_apply, List.append_nil]) <;> grind [crit]
  · simp only [Option.some.injEq, Prod.mk.injEq] at hs; obtain ⟨rfl, rfl⟩ := hs
    have e1 : starts [Ev.started p] = 1 := rfl
    have e2 : stops [Ev.started p] = 0 := rfl
    have t1 : (TickTask.spawn c s).tstate = s.tstate := by unfold TickTask.spawn; split <;> rfl
    have t2 : (TickTask.spawn c s).mutex = s.mutex := by unfold TickTask.spawn; split <;> rfl
    constructor <;> (try simp only [starts_append, stops_append, upd_apply, e1, e2, t1, t2]) <;> grind [crit]
  · simp only [Option.some.injEq, Prod.mk.injEq] at hs; obtain ⟨rfl, rfl⟩ := hs
    have e1 : starts [Ev.startRet p] = 0 := rfl
    have e2 : stops [Ev.startRet p] = 0 := rfl
    constructor <;> (try simp only [starts_append, stops_append, upd_apply, e1, e2]) <;> grind [crit]
  · have e1 : starts [Ev.stopRet p false] = 0 := rfl
    have e2 : stops [Ev.stopRet p false] = 0 := rfl
    split at hs <;> (simp only [Option.some.injEq, Prod.mk.injEq] at hs; obtain ⟨rfl, rfl⟩ := hs) <;>
      constructor <;> (try simp only [starts_append, stops_append, upd_apply, List.append_nil, e1, e2]) <;> grind [crit]
  · have e1 : starts [Ev.stopCrash p] = 0 := rfl
    have e2 : stops [Ev.stopCrash p] = 0 := rfl
    split at hs <;> (simp only [Option.some.injEq, Prod.mk.injEq] at hs; obtain ⟨rfl, rfl⟩ := hs) <;>
      constructor <;> (try simp only [starts_append, stops_append, upd_apply, List.append_nil, e1, e2]) <;> grind [crit]
  · simp only [Option.some.injEq, Prod.mk.injEq] at hs; obtain ⟨rfl, rfl⟩ := hs
    have e1 : starts [Ev.stopRet p true] = 0 := rfl
    have e2 : stops [Ev.stopRet p true] = 1 := rfl
    constructor <;> (try simp only [starts_append, stops_append, upd_apply, e1, e2]) <;> grind [crit]

theorem sinv_loop {c : Cfg} {h : List Ev} {s s' : State} {l : Nat} {bad skip : Bool} {evs : List Ev} (i : SInv h s)
    (hs : loopStep c s l bad skip = some (s', evs)) : SInv (h ++ evs) s' := by
  have hsp : ∀ s : State, (TickTask.spawn c s).cl = s.cl ∧ (TickTask.spawn c s).tstate = s.tstate ∧
      (TickTask.spawn c s).mutex = s.mutex := by
    intro s; unfold TickTask.spawn; split <;> exact ⟨rfl, rfl, rfl⟩
  unfold loopStep at hs
  repeat' split at hs
  all_goals first
    | (cases hs; done)
    | (simp only [Option.some.injEq, Prod.mk.injEq] at hs
       obtain ⟨rfl, rfl⟩ := hs
       first
         | exact i.frame rfl rfl rfl rfl rfl
         | exact i.frame (hsp _).1 (hsp _).2.1 (hsp _).2.2 rfl rfl)

theorem sinv_step (c : Cfg) {h : List Ev} {s s' : State} {a : Act} {evs : List Ev} (i : SInv h s)
    (hs : step c s a = some (s', evs)) : SInv (h ++ evs) s' := by
  unfold step at hs
  split at hs
  · cases hs
  · cases a with
    | callStart p =>
      obtain ⟨a1, a2, a3, a4, a5, a6, a7⟩ := i
      simp only at hs
      split at hs
      · have e1 : starts [Ev.startRet p] = 0 := rfl
        have e2 : stops [Ev.startRet p] = 0 := rfl
        split at hs <;> (simp only [Option.some.injEq, Prod.mk.injEq] at hs; obtain ⟨rfl, rfl⟩ := hs) <;>
          constructor <;> (try simp only [starts_append, stops_append, upd_apply, List.append_nil, e1, e2]) <;> grind [crit]
      · cases hs
    | callStop p =>
      obtain ⟨a1, a2, a3, a4, a5, a6, a7⟩ := i
      simp only at hs
      split at hs
      · have e1 : starts [Ev.stopCall p] = 0 := rfl
        have e2 : stops [Ev.stopCall p] = 0 := rfl
        have e3 : starts [Ev.stopCall p, Ev.stopRet p false] = 0 := rfl
        have e4 : stops [Ev.stopCall p, Ev.stopRet p false] = 0 := rfl
        split at hs <;> (simp only [Option.some.injEq, Prod.mk.injEq] at hs; obtain ⟨rfl, rfl⟩ := hs) <;>
          constructor <;> (try simp only [starts_append, stops_append, upd_apply, e1, e2, e3, e4]) <;> grind [crit]
      · cases hs
    | client p => exact sinv_client i hs
    | due =>
      simp only at hs
      split at hs
      · cases hs
      · simp only [Option.some.injEq, Prod.mk.injEq] at hs; obtain ⟨rfl, rfl⟩ := hs
        exact i.frame rfl rfl rfl rfl rfl
    | fire k =>
      simp only at hs
      split at hs
      · simp only [Option.some.injEq, Prod.mk.injEq] at hs; obtain ⟨rfl, rfl⟩ := hs
        exact i.frame rfl rfl rfl rfl rfl
      · cases hs
    | loop l bad skip => exact sinv_loop i hs

theorem sinv_run {c : Cfg} {h : List Ev} {s : State} (hr : (sys c).Run h s) : SInv h s :=
  Lts.Run.invariant (M := sys c) (P := SInv) sinv_init (fun _ _ _ _ _ _ hi hs => sinv_step c hi hs) hr

end Braid.TickTask
