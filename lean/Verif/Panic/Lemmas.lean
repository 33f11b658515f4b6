import Verif.Panic.Spec

/-
Helper lemmas for C116.
-/
namespace Braid.Panic
variable {σ P : Type}

/-- The ways in which a step can go. -/
theorem msg_cases (recovery : P → Fn σ P) (a m : Nat) (chain : Option (Fn σ P)) (u : σ) :
    (chain = none ∧ msgCase recovery a m chain u = (u, [.done a m], .ret)) ∨
    ∃ f, chain = some f ∧
      (((f u).2 = .ret ∧ msgCase recovery a m chain u = ((f u).1, [.ran (.handler a m) .ret, .done a m], .ret)) ∨
      ((f u).2 = .goexit ∧ msgCase recovery a m chain u = ((f u).1, [.ran (.handler a m) .goexit, .done a m], .goexit)) ∨
      ∃ v, (f u).2 = .panic v ∧
        (((recovery v (f u).1).2 = .ret ∧ msgCase recovery a m chain u =
          ((recovery v (f u).1).1, [.ran (.handler a m) (.panic v), .ran (.recoverer a) .ret, .done a m], .ret)) ∨
        ((recovery v (f u).1).2 = .goexit ∧ msgCase recovery a m chain u =
          ((recovery v (f u).1).1, [.ran (.handler a m) (.panic v), .ran (.recoverer a) .goexit], .goexit)) ∨
        ∃ v', (recovery v (f u).1).2 = .panic v' ∧ msgCase recovery a m chain u =
          ((recovery v (f u).1).1, [.ran (.handler a m) (.panic v), .ran (.recoverer a) (.panic v')], .panic v'))) := by
  cases chain with
  | none => exact .inl ⟨rfl, rfl⟩
  | some f =>
    refine .inr ⟨f, rfl, ?_⟩
    rcases hf : f u with ⟨u1, _ | v | _⟩
    · left; simp [msgCase, deferred, user, hf, andThen, recovering, emit, skip]
    · right; right
      refine ⟨v, rfl, ?_⟩
      rcases hr : recovery v u1 with ⟨u2, _ | v' | _⟩ <;>
        simp [msgCase, deferred, user, hf, andThen, recovering, emit, hr]
    · right; left; simp [msgCase, deferred, user, hf, andThen, recovering, emit, skip]

theorem timer_cases (recovery : P → Fn σ P) (a : Nat) (f : Fn σ P) (u : σ) :
    (timerCase recovery a f u = ((f u).1, [.ran (.timer a) .ret], .ret)) ∨
    (timerCase recovery a f u = ((f u).1, [.ran (.timer a) .goexit], .goexit)) ∨
    ∃ v u2, (timerCase recovery a f u = (u2, [.ran (.timer a) (.panic v), .ran (.recoverer a) .ret], .ret)) ∨
      (timerCase recovery a f u = (u2, [.ran (.timer a) (.panic v), .ran (.recoverer a) .goexit], .goexit)) ∨
      ∃ v', timerCase recovery a f u = (u2, [.ran (.timer a) (.panic v), .ran (.recoverer a) (.panic v')], .panic v') := by
  rcases hf : f u with ⟨u1, _ | v | _⟩
  · left; simp [timerCase, deferred, user, hf, recovering, skip]
  · right; right
    rcases hr : recovery v u1 with ⟨u2, _ | v' | _⟩ <;>
      refine ⟨v, u2, ?_⟩ <;> simp [timerCase, deferred, user, hf, recovering, hr]
  · right; left; simp [timerCase, deferred, user, hf, recovering, skip]

theorem reenter_cases (a r : Nat) (f : Fn σ P) (u : σ) :
    (reenterCase a r f u = ((f u).1, [.ran (.action a r) .ret, .completed r false], .ret)) ∨
    (reenterCase a r f u = ((f u).1, [.ran (.action a r) .goexit], .goexit)) ∨
    ∃ v, reenterCase a r f u = ((f u).1, [.ran (.action a r) (.panic v), .completed r true], .ret) := by
  rcases hf : f u with ⟨u1, _ | v | _⟩
  · left; simp [reenterCase, deferred, user, hf, andThen, emit, skip]
  · right; right; exact ⟨v, by simp [reenterCase, deferred, user, hf, andThen, emit]⟩
  · right; left; simp [reenterCase, deferred, user, hf, andThen, skip]

theorem callback_cases (n : Nat) (next : Bool) (f : Fn σ P) (u : σ) :
    (callbackRun n next f u = ((f u).1, .ran (.callback n) .ret :: (if next then [.completed n false] else []), .ret)) ∨
    (callbackRun n next f u = ((f u).1, [.ran (.callback n) .goexit], .goexit)) ∨
    ∃ v, callbackRun n next f u = ((f u).1, [.ran (.callback n) (.panic v)], .panic v) := by
  rcases hf : f u with ⟨u1, _ | v | _⟩
  · left; cases next <;> simp [callbackRun, user, hf, andThen, emit, skip]
  · right; right; exact ⟨v, by simp [callbackRun, user, hf, andThen]⟩
  · right; left; simp [callbackRun, user, hf, andThen]

theorem rpc_cases (n : Nat) (f : Fn σ P) (u : σ) :
    (rpcRun n f u = ((f u).1, [.ran (.rpc n) .ret, .replied n true], .ret)) ∨
    (rpcRun n f u = ((f u).1, [.ran (.rpc n) .goexit], .goexit)) ∨
    ∃ v, rpcRun n f u = ((f u).1, [.ran (.rpc n) (.panic v), .replied n false], .ret) := by
  rcases hf : f u with ⟨u1, _ | v | _⟩
  · left; simp [rpcRun, deferred, user, hf, andThen, emit, skip]
  · right; right; exact ⟨v, by simp [rpcRun, deferred, user, hf, andThen, emit]⟩
  · right; left; simp [rpcRun, deferred, user, hf, andThen, skip]

/-- What a step adds. -/
structure Adds (s s' : State σ) (evs : List (Ev P)) : Prop where
  up0 : s.crashed = false
  crash : Ev.crash ∈ evs ↔ Escaped evs
  crashed : s'.crashed = true ↔ Ev.crash ∈ evs
  loop : ∀ a, Ev.loopEnded a ∈ evs ↔ LeftLoop a evs
  up : ∀ a, s'.up a = false ↔ s.up a = false ∨ Ev.loopEnded a ∈ evs
  chain : ∀ n, Ev.completed n false ∈ evs → Ev.ran (.callback n) .ret ∈ evs ∨ ∃ a, Ev.ran (.action a n) .ret ∈ evs
  act : ∀ a r, (Ev.ran (.action a r) .ret ∈ evs → Ev.completed r false ∈ evs) ∧
    (∀ v, Ev.ran (.action a r) (.panic v) ∈ evs → Ev.completed r true ∈ evs)
  rpc : ∀ n, (Ev.ran (.rpc n) .ret ∈ evs → Ev.replied n true ∈ evs) ∧
    (∀ v, Ev.ran (.rpc n) (.panic v) ∈ evs → Ev.replied n false ∈ evs)

def Esc : Ev P → Prop
  | .ran p (.panic _) => Bare p
  | _ => False

def Lft (a : Nat) : Ev P → Prop
  | .ran p .goexit => on p = some a
  | _ => False

theorem escaped_cons {e : Ev P} {h : List (Ev P)} : Escaped (e :: h) ↔ Esc e ∨ Escaped h := by
  constructor
  · rintro ⟨p, v, hb, hm⟩
    rcases List.mem_cons.1 hm with hm | hm
    · subst hm; exact .inl hb
    · exact .inr ⟨p, v, hb, hm⟩
  · rintro (h | ⟨p, v, hb, hm⟩)
    · rcases e with ⟨p, _ | v | _⟩ | _ | _ | _ | _ | _ | _ <;> first | exact h.elim | exact ⟨p, v, h, by simp⟩
    · exact ⟨p, v, hb, by simp [hm]⟩

theorem left_cons {a : Nat} {e : Ev P} {h : List (Ev P)} : LeftLoop a (e :: h) ↔ Lft a e ∨ LeftLoop a h := by
  constructor
  · rintro ⟨p, hb, hm⟩
    rcases List.mem_cons.1 hm with hm | hm
    · subst hm; exact .inl hb
    · exact .inr ⟨p, hb, hm⟩
  · rintro (h | ⟨p, hb, hm⟩)
    · rcases e with ⟨p, _ | v | _⟩ | _ | _ | _ | _ | _ | _ <;> first | exact h.elim | exact ⟨p, h, by simp⟩
    · exact ⟨p, hb, by simp [hm]⟩

theorem escaped_nil : ¬ Escaped ([] : List (Ev P)) := by rintro ⟨_, _, _, h⟩; cases h
theorem left_nil {a : Nat} : ¬ LeftLoop a ([] : List (Ev P)) := by rintro ⟨_, _, h⟩; cases h

theorem escaped_append {h g : List (Ev P)} : Escaped (h ++ g) ↔ Escaped h ∨ Escaped g := by
  induction h with
  | nil => simp [escaped_nil]
  | cons e h ih => rw [List.cons_append, escaped_cons, escaped_cons, ih, or_assoc]

theorem left_append {a : Nat} {h g : List (Ev P)} : LeftLoop a (h ++ g) ↔ LeftLoop a h ∨ LeftLoop a g := by
  induction h with
  | nil => simp [left_nil]
  | cons e h ih => rw [List.cons_append, left_cons, left_cons, ih, or_assoc]

theorem took_up {recovery : P → Fn σ P} {s s' : State σ} {b : Act σ P} {evs : List (Ev P)} {a m : Nat}
    (hs : step recovery s b = some (s', evs)) (hm : Ev.took a m ∈ evs) : ¬ s.up a = false := by
  intro hu
  cases b with
  | msg a' m' chain =>
    simp only [step] at hs
    split at hs
    · rename_i hc
      rcases msg_cases recovery a' m' chain s.user with ⟨_, h⟩ | ⟨f, _, ⟨_, h⟩ | ⟨_, h⟩ | ⟨v, _, ⟨_, h⟩ | ⟨_, h⟩ | ⟨v', _, h⟩⟩⟩ <;>
        rw [h] at hs <;> simp only [endLoop] at hs <;> cases hs <;> simp at hm <;> rw [← hm.1, hu] at hc <;> cases hc.2
    · cases hs
  | timer a' f =>
    simp only [step] at hs
    split at hs
    · rcases timer_cases recovery a' f s.user with h | h | ⟨v, u2, h | h | ⟨v', h⟩⟩ <;>
        rw [h] at hs <;> simp only [endLoop] at hs <;> cases hs <;> simp at hm
    · cases hs
  | reenter a' r f =>
    simp only [step] at hs
    split at hs
    · rcases reenter_cases a' r f s.user with h | h | ⟨v, h⟩ <;>
        rw [h] at hs <;> simp only [endLoop] at hs <;> cases hs <;> simp at hm
    · cases hs
  | callback n next f =>
    simp only [step] at hs
    split at hs
    · rcases callback_cases n next f s.user with h | h | ⟨v, h⟩ <;>
        rw [h] at hs <;> simp only [endGo] at hs <;> cases hs <;> (try cases next) <;> simp at hm
    · cases hs
  | rpc n f =>
    simp only [step] at hs
    split at hs
    · rcases rpc_cases n f s.user with h | h | ⟨v, h⟩ <;>
        rw [h] at hs <;> simp only [endGo] at hs <;> cases hs <;> simp at hm
    · cases hs

theorem upd_false (f : Nat → Bool) (a b : Nat) : upd f a false b = false ↔ f b = false ∨ b = a := by
  by_cases e : b = a
  · subst e; simp
  · rw [upd_of_ne _ _ e]; simp [e]

theorem adds {recovery : P → Fn σ P} {s s' : State σ} {a : Act σ P} {evs : List (Ev P)}
    (hs : step recovery s a = some (s', evs)) : Adds s s' evs := by
  cases a with
  | msg a m chain =>
    simp only [step] at hs
    split at hs
    · rename_i hc
      rcases msg_cases recovery a m chain s.user with ⟨_, h⟩ | ⟨f, _, ⟨_, h⟩ | ⟨_, h⟩ | ⟨v, _, ⟨_, h⟩ | ⟨_, h⟩ | ⟨v', _, h⟩⟩⟩ <;>
        rw [h] at hs <;> simp only [endLoop] at hs <;> cases hs <;>
        constructor <;> simp [hc.1, escaped_cons, escaped_nil, left_cons, left_nil, upd_false, Esc, Lft, Bare, on] <;> (first | exact fun _ => eq_comm | exact fun _ _ _ _ h _ => h)
    · cases hs
  | timer a f =>
    simp only [step] at hs
    split at hs
    · rename_i hc
      rcases timer_cases recovery a f s.user with h | h | ⟨v, u2, h | h | ⟨v', h⟩⟩ <;>
        rw [h] at hs <;> simp only [endLoop] at hs <;> cases hs <;>
        constructor <;> simp [hc.1, escaped_cons, escaped_nil, left_cons, left_nil, upd_false, Esc, Lft, Bare, on] <;> (first | exact fun _ => eq_comm | exact fun _ _ _ _ h _ => h)
    · cases hs
  | reenter a r f =>
    simp only [step] at hs
    split at hs
    · rename_i hc
      rcases reenter_cases a r f s.user with h | h | ⟨v, h⟩ <;>
        rw [h] at hs <;> simp only [endLoop] at hs <;> cases hs <;>
        constructor <;> simp [hc.1, escaped_cons, escaped_nil, left_cons, left_nil, upd_false, Esc, Lft, Bare, on] <;> (first | exact fun _ => eq_comm | exact fun _ _ _ _ h _ => h)
    · cases hs
  | callback n next f =>
    simp only [step] at hs
    split at hs
    · rename_i hc
      rcases callback_cases n next f s.user with h | h | ⟨v, h⟩ <;>
        rw [h] at hs <;> simp only [endGo] at hs <;> cases hs <;> (try cases next) <;>
        constructor <;> simp [hc, escaped_cons, escaped_nil, left_cons, left_nil, Esc, Lft, Bare, on]
    · cases hs
  | rpc n f =>
    simp only [step] at hs
    split at hs
    · rename_i hc
      rcases rpc_cases n f s.user with h | h | ⟨v, h⟩ <;>
        rw [h] at hs <;> simp only [endGo] at hs <;> cases hs <;>
        constructor <;> simp [hc, escaped_cons, escaped_nil, left_cons, left_nil, Esc, Lft, Bare, on]
    · cases hs

/-- The whole history. -/
structure Inv (h : List (Ev P)) (s : State σ) : Prop where
  crash : Ev.crash ∈ h ↔ Escaped h
  crashed : s.crashed = true ↔ Ev.crash ∈ h
  loop : ∀ a, Ev.loopEnded a ∈ h ↔ LeftLoop a h
  up : ∀ a, s.up a = false ↔ Ev.loopEnded a ∈ h
  chain : ∀ n, Ev.completed n false ∈ h → Ev.ran (.callback n) .ret ∈ h ∨ ∃ a, Ev.ran (.action a n) .ret ∈ h
  act : ∀ a r, (Ev.ran (.action a r) .ret ∈ h → Ev.completed r false ∈ h) ∧
    (∀ v, Ev.ran (.action a r) (.panic v) ∈ h → Ev.completed r true ∈ h)
  rpc : ∀ n, (Ev.ran (.rpc n) .ret ∈ h → Ev.replied n true ∈ h) ∧
    (∀ v, Ev.ran (.rpc n) (.panic v) ∈ h → Ev.replied n false ∈ h)

theorem inv_run {recovery : P → Fn σ P} {u : σ} {h : List (Ev P)} {s : State σ} (hr : (sys recovery u).Run h s) : Inv h s := by
  refine Lts.Run.invariant (P := Inv) ?_ ?_ hr
  · constructor <;> simp [sys, escaped_nil, left_nil]
  · intro h s a s' evs _ i hs
    obtain ⟨a0, a1, a2, a3, a4, a5, a6, a7⟩ := adds hs
    have hn : Ev.crash ∉ h := fun hc => by rw [i.crashed.2 hc] at a0; cases a0
    constructor
    · rw [List.mem_append, escaped_append, i.crash, a1]
    · rw [a2, List.mem_append]; exact ⟨.inr, fun h => h.resolve_left hn⟩
    · intro a; rw [List.mem_append, left_append, i.loop, a3]
    · intro a; rw [a4, List.mem_append, i.up]
    · intro n hn
      rcases List.mem_append.1 hn with hn | hn
      · rcases i.chain n hn with h1 | ⟨a, h1⟩
        · exact .inl (List.mem_append_left _ h1)
        · exact .inr ⟨a, List.mem_append_left _ h1⟩
      · rcases a5 n hn with h1 | ⟨a, h1⟩
        · exact .inl (List.mem_append_right _ h1)
        · exact .inr ⟨a, List.mem_append_right _ h1⟩
    · refine fun a r => ⟨fun hm => ?_, fun v hm => ?_⟩ <;> rcases List.mem_append.1 hm with hm | hm
      · exact List.mem_append_left _ ((i.act a r).1 hm)
      · exact List.mem_append_right _ ((a6 a r).1 hm)
      · exact List.mem_append_left _ ((i.act a r).2 v hm)
      · exact List.mem_append_right _ ((a6 a r).2 v hm)
    · refine fun n => ⟨fun hm => ?_, fun v hm => ?_⟩ <;> rcases List.mem_append.1 hm with hm | hm
      · exact List.mem_append_left _ ((i.rpc n).1 hm)
      · exact List.mem_append_right _ ((a7 n).1 hm)
      · exact List.mem_append_left _ ((i.rpc n).2 v hm)
      · exact List.mem_append_right _ ((a7 n).2 v hm)

theorem counts_step {recovery : P → Fn σ P} (hq : Quiet recovery) {s s' : State σ} {a : Act σ P} {evs : List (Ev P)}
    (hs : step recovery s a = some (s', evs)) (b m : Nat) : evs.countP (isDone b m) = evs.countP (isTook b m) := by
  cases a with
  | msg a m' chain =>
    simp only [step] at hs
    split at hs
    · rcases msg_cases recovery a m' chain s.user with ⟨_, h⟩ | ⟨f, _, ⟨_, h⟩ | ⟨_, h⟩ | ⟨v, _, ⟨_, h⟩ | ⟨hb, h⟩ | ⟨v', hb, h⟩⟩⟩
      all_goals first
        | (rw [hq] at hb; cases hb; done)
        | (rw [h] at hs; simp only [endLoop] at hs; cases hs; simp [List.countP_cons, isTook, isDone])
    · cases hs
  | timer a f =>
    simp only [step] at hs
    split at hs
    · rcases timer_cases recovery a f s.user with h | h | ⟨v, u2, h | h | ⟨v', h⟩⟩ <;>
        rw [h] at hs <;> simp only [endLoop] at hs <;> cases hs <;> simp [isTook, isDone]
    · cases hs
  | reenter a r f =>
    simp only [step] at hs
    split at hs
    · rcases reenter_cases a r f s.user with h | h | ⟨v, h⟩ <;>
        rw [h] at hs <;> simp only [endLoop] at hs <;> cases hs <;> simp [isTook, isDone]
    · cases hs
  | callback n next f =>
    simp only [step] at hs
    split at hs
    · rcases callback_cases n next f s.user with h | h | ⟨v, h⟩ <;>
        rw [h] at hs <;> simp only [endGo] at hs <;> cases hs <;> (try cases next) <;> simp [isTook, isDone]
    · cases hs
  | rpc n f =>
    simp only [step] at hs
    split at hs
    · rcases rpc_cases n f s.user with h | h | ⟨v, h⟩ <;>
        rw [h] at hs <;> simp only [endGo] at hs <;> cases hs <;> simp [isTook, isDone]
    · cases hs

theorem counts {recovery : P → Fn σ P} (hq : Quiet recovery) {u : σ} {h : List (Ev P)} {s : State σ} (hr : (sys recovery u).Run h s)
    (b m : Nat) : h.countP (isDone b m) = h.countP (isTook b m) := by
  refine Lts.Run.invariant (P := fun h _ => h.countP (isDone b m) = h.countP (isTook b m)) rfl ?_ hr
  intro h s a s' evs _ i hs
  rw [List.countP_append, List.countP_append, i, counts_step hq hs]

/-- A quiet recovery function is not seen to panic. -/
def quietEv : Ev P → Prop
  | .ran (.recoverer _) .ret => True
  | .ran (.recoverer _) _ => False
  | _ => True

theorem quiet_step {recovery : P → Fn σ P} (hq : Quiet recovery) {s s' : State σ} {a : Act σ P} {evs : List (Ev P)}
    (hs : step recovery s a = some (s', evs)) : ∀ e ∈ evs, quietEv e := by
  cases a with
  | msg a m' chain =>
    simp only [step] at hs
    split at hs
    · rcases msg_cases recovery a m' chain s.user with ⟨_, h⟩ | ⟨f, _, ⟨_, h⟩ | ⟨_, h⟩ | ⟨v, _, ⟨_, h⟩ | ⟨hb, h⟩ | ⟨v', hb, h⟩⟩⟩
      all_goals first
        | (rw [hq] at hb; cases hb; done)
        | (rw [h] at hs; simp only [endLoop] at hs; cases hs; simp [quietEv])
    · cases hs
  | timer a f =>
    simp only [step] at hs
    split at hs
    · rcases hf : f s.user with ⟨u1, _ | v | _⟩
      · simp [timerCase, deferred, user, hf, recovering, skip, endLoop] at hs; rw [← hs.2]; simp [quietEv]
      · have hv := hq v u1
        rcases hr : recovery v u1 with ⟨u2, e⟩
        rw [hr] at hv; dsimp only at hv; subst hv
        simp [timerCase, deferred, user, hf, recovering, hr, endLoop] at hs; rw [← hs.2]; simp [quietEv]
      · simp [timerCase, deferred, user, hf, recovering, skip, endLoop] at hs; rw [← hs.2]; simp [quietEv]
    · cases hs
  | reenter a r f =>
    simp only [step] at hs
    split at hs
    · rcases reenter_cases a r f s.user with h | h | ⟨v, h⟩ <;>
        rw [h] at hs <;> simp only [endLoop] at hs <;> cases hs <;> simp [quietEv]
    · cases hs
  | callback n next f =>
    simp only [step] at hs
    split at hs
    · rcases callback_cases n next f s.user with h | h | ⟨v, h⟩ <;>
        rw [h] at hs <;> simp only [endGo] at hs <;> cases hs <;> (try cases next) <;> simp [quietEv]
    · cases hs
  | rpc n f =>
    simp only [step] at hs
    split at hs
    · rcases rpc_cases n f s.user with h | h | ⟨v, h⟩ <;>
        rw [h] at hs <;> simp only [endGo] at hs <;> cases hs <;> simp [quietEv]
    · cases hs

theorem quiet_run {recovery : P → Fn σ P} (hq : Quiet recovery) {u : σ} {h : List (Ev P)} {s : State σ}
    (hr : (sys recovery u).Run h s) : ∀ e ∈ h, quietEv e := by
  refine Lts.Run.invariant (P := fun h _ => ∀ e ∈ h, quietEv e) (by simp) ?_ hr
  intro h s a s' evs _ i hs e he
  rcases List.mem_append.1 he with he | he
  · exact i e he
  · exact quiet_step hq hs e he

/-- A step in which the process crashes. -/
theorem crash_step {recovery : P → Fn σ P} {s s' : State σ} {a : Act σ P} {evs : List (Ev P)}
    (hs : step recovery s a = some (s', evs)) (hc : Ev.crash ∈ evs) :
    ∃ pre p v, evs = pre ++ [.ran p (.panic v), .crash] ∧ Ev.crash ∉ pre ∧
      ((∃ n, p = .callback n) ∨ ∃ a, p = .recoverer a) := by
  cases a with
  | msg a m chain =>
    simp only [step] at hs
    split at hs
    · rcases msg_cases recovery a m chain s.user with ⟨_, h⟩ | ⟨f, _, ⟨_, h⟩ | ⟨_, h⟩ | ⟨v, _, ⟨_, h⟩ | ⟨_, h⟩ | ⟨v', _, h⟩⟩⟩ <;>
        rw [h] at hs <;> simp only [endLoop] at hs <;> cases hs <;> first
          | (simp at hc; done)
          | exact ⟨[.took a m, .ran (.handler a m) (.panic v)], .recoverer a, v', rfl, by simp, .inr ⟨a, rfl⟩⟩
    · cases hs
  | timer a f =>
    simp only [step] at hs
    split at hs
    · rcases timer_cases recovery a f s.user with h | h | ⟨v, u2, h | h | ⟨v', h⟩⟩ <;>
        rw [h] at hs <;> simp only [endLoop] at hs <;> cases hs <;> first
          | (simp at hc; done)
          | exact ⟨[.ran (.timer a) (.panic v)], .recoverer a, v', rfl, by simp, .inr ⟨a, rfl⟩⟩
    · cases hs
  | reenter a r f =>
    simp only [step] at hs
    split at hs
    · rcases reenter_cases a r f s.user with h | h | ⟨v, h⟩ <;>
        rw [h] at hs <;> simp only [endLoop] at hs <;> cases hs <;> (simp at hc; done)
    · cases hs
  | callback n next f =>
    simp only [step] at hs
    split at hs
    · rcases callback_cases n next f s.user with h | h | ⟨v, h⟩ <;>
        rw [h] at hs <;> simp only [endGo] at hs <;> cases hs <;> first
          | (cases next <;> simp at hc; done)
          | exact ⟨[], .callback n, v, rfl, by simp, .inl ⟨n, rfl⟩⟩
    · cases hs
  | rpc n f =>
    simp only [step] at hs
    split at hs
    · rcases rpc_cases n f s.user with h | h | ⟨v, h⟩ <;>
        rw [h] at hs <;> simp only [endGo] at hs <;> cases hs <;> (simp at hc; done)
    · cases hs

end Braid.Panic
