import Verif.Fail.Model

/-
What C115 is about, apart from the model.
-/
namespace Braid.Fail
variable {E D : Type}

/-- **C115**, the full statement: when `Call` returns nil, the actor has handled the message without failure. -/
def NilMeansSuccess (cfg : Cfg E D) : Prop :=
  ∀ h s c, (sys cfg).Run h s → Ev.ret c none ∈ h → ∃ w, Ev.handled c .ok w ∈ h

/-- What callers see of an event: not how handlers end, and of an error only that there is one. -/
inductive Seen (E D : Type)
  | begin (c a : Nat) (event : String) (w : Wrap E D)
  | refused (c : Nat) (e : E)
  | accepted (c : Nat)
  | handled (c : Nat)
  | timeout (c : Nat)
  | ctxEnded (c : Nat)
  /-- `ok`: nil -/
  | ret (c : Nat) (ok : Bool)

def see : Ev E D → Seen E D
  | .begin c a ev w => .begin c a ev w
  | .refused c e => .refused c e
  | .accepted c => .accepted c
  | .handled c _ _ => .handled c
  | .timeout c => .timeout c
  | .ctxEnded c => .ctxEnded c
  | .ret c r => .ret c r.isNone

/-- The call an event is about. -/
def about : Ev E D → Nat
  | .begin c _ _ _ => c
  | .refused c _ => c
  | .accepted c => c
  | .handled c _ _ => c
  | .timeout c => c
  | .ctxEnded c => c
  | .ret c _ => c

/-- Steps that need nobody from outside and no timeout. -/
def Internal : Act E D → Prop
  | .take _ => True
  | .run _ => True
  | .release _ => True
  | .waiter _ false => True
  | .ret _ => True
  | _ => False

/-- How a chain leaves the wrapper, and how it ends; without a chain nothing happens. -/
def Handles (cfg : Cfg E D) (a : Nat) (event : String) (w w' : Wrap E D) (o : Out E) : Prop :=
  (cfg.chain a event = none ∧ w' = w ∧ o = .unknown) ∨
  ∃ ch, cfg.chain a event = some ch ∧ w' = (Chain.execute ch w).1 ∧
    ((o = .ok ∧ (Chain.execute ch w).2.2 = .ok) ∨ (∃ e, o = .err e ∧ (Chain.execute ch w).2.2 = .err e) ∨
      (o = .panic ∧ (Chain.execute ch w).2.2 = .panic))

end Braid.Fail
