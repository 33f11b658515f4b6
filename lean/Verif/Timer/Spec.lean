import Verif.Timer.Model

/-
Specification for C17, C18 and C19.
-/
namespace Braid.Timer.Spec

/-- The times when the ticks of timer `t` were queued. -/
def times (t : Nat) : List Ev → List Int :=
  List.filterMap fun
    | .queued t' a => if t' = t then some a else none
    | _ => none

/-- `l` are exactly the times of a timer with first tick at `first` and then every `interval`, up to
`now`. -/
def Periodic (first interval now : Int) (l : List Int) : Prop :=
  ∀ i : Nat, l[i]? = if first + i * interval ≤ now then some (first + i * interval) else none

/-- The documentation of `OnTimer` (actor_runtime_impl.go:89-94), in nanoseconds: first tick after `due`,
then every `interval`; only one tick if `interval` is 0. -/
def AsDocumented (t0 due interval now : Int) (l : List Int) : Prop :=
  if interval = 0 then l = if t0 + due ≤ now then [t0 + due] else []
  else Periodic (t0 + due) interval now l

/-- The timers of the ticks that were queued, in order. -/
def queuedIds : List Ev → List Nat :=
  List.filterMap fun
    | .queued t _ => some t
    | _ => none

/-- The timers whose callbacks started, in order. -/
def starts : List Ev → List Nat :=
  List.filterMap fun
    | .cbStart t => some t
    | _ => none

/-- Nobody stops or resets timer `t` and the actor is not shut down. -/
def Untouched (t : Nat) (h : List Ev) : Prop :=
  (∀ u, .stopCall u t ∉ h) ∧ (∀ u d, .resetCall u t d ∉ h) ∧ .shutdown ∉ h

/-- Timers are stopped and reset only after two of their ticks were queued. -/
def Late (h : List Ev) : Prop :=
  (∀ h1 h2 u t, h = h1 ++ .stopCall u t :: h2 → 2 ≤ (times t h1).length) ∧
  (∀ h1 h2 u t d, h = h1 ++ .resetCall u t d :: h2 → 2 ≤ (times t h1).length)

/-- What goroutines, tickers and the loop do by themselves. -/
def Internal : Act → Prop
  | .g _ _ | .fire _ | .select | .loop => True
  | _ => False

/-- Nothing is left to do at this moment, and the channel of ticks has room. -/
def Idle (s : State) : Prop := (∀ a, Internal a → step s a = none) ∧ s.chan.length < 1024

/-- Executions on a machine that is fast enough: time passes only when nothing is left to do. -/
inductive Prompt : List Ev → State → Prop
  | init : Prompt [] init
  | step {h s a s' evs} : Prompt h s → step s a = some (s', evs) → (a = .pass → Idle s) →
      Prompt (h ++ evs) s'

/-- The ticks of `t` that are on their way to the callback. -/
def pending (t : Nat) (s : State) : Nat :=
  s.chan.count t + (if s.loop = .tick t then 1 else 0) +
  (match (s.tm t).g with | .first => 1 | .send => 1 | _ => 0) +
  (match (s.tm t).ticker with | some k => if k.chan then 1 else 0 | none => 0)

/-- A call of `Stop` or `Reset`. -/
inductive Op
  | stop
  | reset (d : Int)

/-- The states a timer can be in when its goroutine has made the ticker (`interval > 0`), after any
calls of `Stop` and `Reset` one after the other, at any times. -/
inductive Reach : T → Prop
  | start {i now z : Int} : 0 < i → Reach ⟨i, true, some ⟨true, i, now + i, false⟩, .sel, z⟩
  | stop {x x' b} : Reach x → stopT x = some (x', b) → Reach x'
  | reset {x x' b now d} : Reach x → resetT now x d = some (x', b) → Reach x'

end Braid.Timer.Spec
