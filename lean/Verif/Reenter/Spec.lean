import Verif.Reenter.Model

/-
Specification for C15 and C16, in terms of the events only.
-/
namespace Braid.Reenter.Spec

/-- The completions of the future of call `c`. -/
def completions (c : Nat) : List Ev → List Wrap :=
  List.filterMap fun
    | .completed c' w _ => if c' = c then some w else none
    | _ => none

/-- Callback `k` of call `c` and the work of the actor never overlap: when one starts the other is not
between its start and its end. -/
def NoOverlap (h : List Ev) : Prop :=
  (∀ h1 j h2 c k w, h = h1 ++ .workStart j :: h2 → .cbStart c k w ∈ h1 → .cbEnd c k ∈ h1) ∧
  (∀ h1 c k w h2 j, h = h1 ++ .cbStart c k w :: h2 → .workStart j ∈ h1 → .workEnd j ∈ h1)

/-- The value `w` of a future completed after history `h` says what happened: the context ended, or the
call failed with that error, or it succeeded with that response. (`rmw.Err` is left as it was by a
successful call.) -/
def Justified (c : Nat) (w : Wrap) (h : List Ev) : Prop :=
  (∃ e, w = ⟨some e, none⟩ ∧ .ctxEnd c e ∈ h) ∨
  (∃ e, w.err = some e ∧ .callRet c (.err e) ∈ h) ∨
  (∃ e0 r, w = ⟨e0, r⟩ ∧ .callRet c (.ok r) ∈ h ∧ .begin c e0 ∈ h)

/-- What the goroutines of the calls and the loop do by themselves to bring results to the futures:
everything except new calls, new callbacks, the end of `Sys.Call` or of a context, other work of the
loop, its end, and the goroutines of the user's callbacks. -/
def Internal : Act → Prop
  | .then1 _ | .g1 _ _ | .g2 _ | .push _ | .select | .loop => True
  | _ => False

end Braid.Reenter.Spec
