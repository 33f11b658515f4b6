import Verif.Trace.Model

/-
Specification of traces (C124), in terms of what can be observed.
-/
namespace Braid.Trace.Spec

/-- The wrapper has not been used for a call in `h`. -/
def Unused (w : Nat) (h : List Ev) : Prop := ∀ c p q, .started c w p q ∉ h

/-- `Shows h w x`: after `h` the context of wrapper `w` shows the span `x`: that of the last call made with `w`, or, if there was
none, what the wrapper showed from which `w` was made. -/
inductive Shows : List Ev → Nat → Option Nat → Prop
  | used {pre post : List Ev} {c w : Nat} {p q : Option Nat} (h : Unused w post) : Shows (pre ++ .started c w p q :: post) w (some c)
  | new {pre post : List Ev} {w : Nat} (h : Unused w post) : Shows (pre ++ .made w none :: post) w none
  | derived {pre post : List Ev} {w v : Nat} {x : Option Nat} (h : Unused w post) (hv : Shows pre v x) :
    Shows (pre ++ .made w (some v) :: post) w x

/-- Wrappers are used as the traces need it: each for one call; code that runs for a call makes its wrappers from the wrapper of this
call, and not after a call with that one; other code makes them from nothing. -/
def Tidy (h : List Ev) : Prop :=
  ∀ pre c w p q post, h = pre ++ .started c w p q :: post → Unused w pre ∧
    match p with
    | none => .made w none ∈ pre
    | some d => ∃ l1 l2 l3 v p' q', pre = l1 ++ .started d v p' q' :: l2 ++ .made w (some v) :: l3 ∧ Unused v l2

end Braid.Trace.Spec
