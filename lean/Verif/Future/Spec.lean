import Verif.Future.Model

/-
Specification vocabulary for futures, in terms of the observable history.
-/
namespace Braid.Future
variable {V : Type}

/-- The value of the first `Complete` call on `f`. -/
def firstVal (h : List (Ev V)) (f : Nat) : Option V :=
  h.findSome? fun
    | .complete _ g v => if g = f then some v else none
    | _ => none

/-- The registrations whose callback has been started, in order. -/
def starts (h : List (Ev V)) : List Nat :=
  h.filterMap fun | .start r _ => some r | _ => none

/-- The registrations (one per `Then` call), in order. -/
def regs (h : List (Ev V)) : List Nat :=
  h.filterMap fun | .then_ r _ => some r | _ => none

/-- No goroutine is inside `Then` or `Complete` and every callback goroutine has ended. -/
def Quiet (s : St V) : Prop := ∀ t, s.pc t = .idle

/-- `Then` call number `r` on `f` took the lock before any `Complete` call on `f` did. -/
def Early (h : List (Ev V)) (r f : Nat) : Prop :=
  Ev.then_ r f ∈ h ∧ ∀ t v, ¬ Before h (Ev.complete t f v) (Ev.then_ r f)

/-- C08 for one `Then` call: at rest, with `f` completed by `v` and nobody else completing the future
`c` that `Then` returned, `c` is completed with `v`, after the callback has returned. -/
def ThenCompletes (h : List (Ev V)) (s : St V) (r f c : Nat) (v : V) : Prop :=
  Quiet s → Ev.then_ r f ∈ h → Ev.child r c ∈ h → firstVal h f = some v →
    (∀ u w, Ev.complete (.inl u) c w ∉ h) →
    ∃ t, Before h (Ev.finish r v) (Ev.complete t c v)

/-- C08 for a chain of two: at rest, the second callback ran after the first one returned. -/
def ChainRuns (h : List (Ev V)) (s : St V) (r1 f c r2 : Nat) (v : V) : Prop :=
  Quiet s → Ev.then_ r1 f ∈ h → Ev.child r1 c ∈ h → Ev.then_ r2 c ∈ h → firstVal h f = some v →
    (∀ u w, Ev.complete (.inl u) c w ∉ h) →
    Before h (Ev.finish r1 v) (Ev.start r2 v)

/-- What the program calls; everything else are the steps of these calls and of the callback goroutines. -/
def outside : Act V → Bool
  | .next _ => false
  | _ => true

end Braid.Future
