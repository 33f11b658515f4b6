import Verif.Actor.Spec

/-
What property C109 means: the work an actor does until `Exit` has returned.
-/
namespace Braid.Actor.Spec

/-- `Exit` is called. -/
def isExit : Act → Bool
  | .exit _ => true
  | _ => false

/-- The step only looks whether something has changed: the loop takes the case of the shutdown signal again, or `checkClose`
looks at the queues and has to look again. (Both go round in circles as long as the actor is closing.) `s'` is the state
after the step, `evs` what could be seen. -/
def polls (s' : State) (a : Act) (evs : List Ev) : Bool :=
  match a with
  | .select .shutdown => evs.isEmpty
  | .check _ => s'.chk = .testQ || s'.chk = .testR || s'.chk = .wait
  | _ => false

/-- How many steps of a schedule do more than look. -/
def worked (self : String) : State → List Act → Nat
  | _, [] => 0
  | s, a :: as =>
    match step self s a with
    | none => 0
    | some (s', evs) => (if polls s' a evs then 0 else 1) + worked self s' as

/-- `s'` comes about from `s` by looking only. -/
inductive Polled (self : String) : State → State → Prop
  | refl (s : State) : Polled self s s
  | step {s s1 s2 : State} {a : Act} {evs : List Ev} : Polled self s s1 → step self s1 a = some (s2, evs) →
      polls s2 a evs = true → Polled self s s2

/-- Nothing goes on any more but looking, however long it lasts, unless something comes from outside, `Exit` is called or the
ten seconds of `checkClose` are over. -/
def Quiet (self : String) (s : State) : Prop :=
  ∀ s1, Polled self s s1 → ∀ a s2 evs, step self s1 a = some (s2, evs) →
    outside a = true ∨ isExit a = true ∨ a = .check true ∨ polls s2 a evs = true

/-- Nobody is putting something into the reentry queue after `h`. -/
def SettledR (h : List Ev) : Prop := ∀ p id r, .renter p id r ∈ h → .rentered id ∈ h

end Braid.Actor.Spec
