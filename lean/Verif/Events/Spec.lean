import Verif.Events.Model

/-
What the handlers of an actor should do (C68, C70), from histories alone.
-/
namespace Braid.Events

/-- The handler offered for the event `ev` by an event of the history: by `OnEvent`, whatever it returned, or by
a `Sub` that returned no error, which offers its callback for the name of its channel. -/
def offer (ev : String) : Ev → Option Nat
  | .onEvent e f _ => if e = ev then some f else none
  | .sub _ c f ok => if ok = true ∧ c = ev then some f else none
  | _ => none

/-- The handler that was offered first. -/
def first (ev : String) (h : List Ev) : Option Nat := h.findSome? (offer ev)

/-- **C70**, registration: `OnEvent` returns no error iff the event has no handler yet. -/
def RegistersOnce (h : List Ev) : Prop :=
  ∀ h1 ev f ok h2, h = h1 ++ .onEvent ev f ok :: h2 → (ok = true ↔ first ev h1 = none)

/-- **C70**, messages: a message is given to the handler registered first for its event, and to none if there is
none. -/
def Dispatches (h : List Ev) : Prop :=
  (∀ h1 m f h2, h = h1 ++ .handled m f :: h2 → first m.event h1 = some f) ∧
  ∀ h1 m h2, h = h1 ++ .unhandled m :: h2 → first m.event h1 = none

/-- The messages put into the queue, in order. -/
def pushes (h : List Ev) : List Item := h.filterMap fun e => match e with | .pushed m => some m | _ => none

/-- The messages taken out, in order. -/
def taken (h : List Ev) : List Item :=
  h.filterMap fun e => match e with | .handled m _ => some m | .unhandled m => some m | _ => none

/-- **C68**: when `Sub` returned no error, a message of the channel is handled by the callback. -/
def CallbackHandles (h : List Ev) : Prop :=
  ∀ t c f h1 h2, h = h1 ++ .sub t c f true :: h2 →
    (∀ m g, m.src = some (t, c) → Ev.handled m g ∈ h2 → g = f) ∧
    ∀ m, m.src = some (t, c) → Ev.unhandled m ∉ h2

end Braid.Events
