import Verif.TickTask.Round

/-
What a round should do (C63), said without the model's functions.
-/
namespace Braid.TickRound

/-- `IsEnd` when the handler is due: what `OnBeforeHandler` leaves. -/
def endAfterBefore (v : Service) (isEnd : Bool) : Bool :=
  match v.before with
  | none => isEnd
  | some k => k.run isEnd

/-- The hooks that are due in a round and whether each panics, in the documented order. -/
def due (v : Service) (hd : Handler) (isEnd : Bool) : List (Call × Bool) :=
  (match v.before with
    | none => []
    | some k => [(Call.before, k.panics isEnd)]) ++
  (if endAfterBefore v isEnd then [] else
    (Call.handler, hd.res false == .panic) ::
    (match v.exc with
      | none => []
      | some k => if hd.res false = .err then [(Call.excErr, k.panics (hd.run false))] else [])) ++
  (match v.fin with
    | none => []
    | some k =>
      let e := if endAfterBefore v isEnd then true
        else match v.exc, hd.res false with
          | some x, .err => x.run (hd.run false)
          | _, _ => hd.run false
      [(Call.fin, k.panics e)])

/-- **C63**, a round without panics: exactly the due hooks, in order. -/
def Quiet (v : Service) (hd : Handler) (isEnd : Bool) : Prop := ∀ x ∈ due v hd isEnd, x.2 = false

end Braid.TickRound
