import Verif.Payload.Model

/-
Specification of C100: what arrives and what comes back.
-/
namespace Braid.Payload.Spec
open Wire

/-- `m'` is the request `m`, addressed to `target`, `ty`, `ev`. All that a caller can put into a request is in it; only
the previous actor type is not mentioned. -/
structure Arrives (target ty ev : String) (m m' : Message) : Prop where
  headers : ∃ h h', m.header = some h ∧ m'.header = some h' ∧ h'.id = h.id ∧ h'.orgActorID = h.orgActorID ∧
    h'.orgActorType = h.orgActorType ∧ h'.token = h.token ∧ h'.timestamp = h.timestamp ∧ h'.custom = h.custom ∧
    h'.targetActorID = enc target ∧ h'.targetActorType = enc ty ∧ h'.event = enc ev
  body : m'.body = m.body

/-- The previous actor type of a request. -/
def prev (m : Option Message) : Option Bytes := (m.bind (·.header)).map (·.prevActorType)

/-- A response in which nobody has written anything: an id and nothing else. -/
def Blank (m : Option Message) : Prop := ∃ uid, m = some { header := some { id := uid } }

/-- What the caller reads: the body of the response. -/
def body (m : Option Message) : Option Bytes := m.map (·.body)

/-- The actor's answer (whether it answers, and the body) depends on the request only, and not on the previous actor
type of it or on what is in the response or the error beforehand. -/
def OnRequest (act : Behaviour) : Prop :=
  ∀ n id w w' target ty ev m m1 m2, w.req = some m1 → w'.req = some m2 → Arrives target ty ev m m1 →
    Arrives target ty ev m m2 → body (act n id w).1.res = body (act n id w').1.res ∧ (act n id w).2 = (act n id w').2

end Braid.Payload.Spec
