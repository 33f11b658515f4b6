import Verif.TickTask.Model

/-
What the properties of tick tasks speak about: counts of events in a history. Nothing here mentions the
state of the model.
-/
namespace Braid.TickTask

/-- Number of handler calls that began in `h`. -/
def begins (h : List Ev) : Nat := h.countP fun e => match e with | .hstart _ => true | _ => false

/-- Number of handler calls that ended in `h`. -/
def ends (h : List Ev) : Nat := h.countP fun e => match e with | .hend _ => true | _ => false

/-- Number of starts that had an effect. -/
def starts (h : List Ev) : Nat := h.countP fun e => match e with | .started _ => true | _ => false

/-- Number of stops that found the task running and have returned. -/
def stops (h : List Ev) : Nat := h.countP fun e => match e with | .stopRet _ true => true | _ => false

/-- Number of panics in a hook or the handler. -/
def panics (h : List Ev) : Nat := h.countP fun e => match e with | .panic _ => true | _ => false

/-- **C61**: at most one handler call of the task runs at the end of `h` (which may be any prefix of an
execution). -/
def OneAtATime (h : List Ev) : Prop := begins h ≤ ends h + 1

/-- **C62**: after an effective stop has returned no handler call begins before the next effective start. -/
def SilentAfterStop (h : List Ev) : Prop :=
  ∀ h1 h2 p, h = h1 ++ Ev.stopRet p true :: h2 → starts h2 = 0 → begins h2 = 0

/-- **C62**: no stop crashes the process. -/
def NoStopCrash (h : List Ev) : Prop := ∀ p, Ev.stopCrash p ∉ h

end Braid.TickTask
