import Verif.CallTree.Model

/-
Specification of circular waiting, on histories and the actor each operation is for (C107).
-/
namespace Braid.CallTree.Spec

/-- Operation `d` has begun and has not returned. -/
def Pending (h : List Ev) (d : Nat) : Prop :=
  (∃ t k g, .begin d t k g ∈ h) ∧ ∀ ok e, .ret d ok e ∉ h

/-- The message of `e` is in a mailbox or in the hands of its actor. -/
def Open (h : List Ev) (e : Nat) : Prop :=
  .accepted e ∈ h ∧ .handled e ∉ h

/-- What operation `d` is for: a root call for all messages with its group, a remote call for what the call of the
acceptor is for. -/
inductive For (h : List Ev) : Nat → Nat → Prop
  | group {d e : Nat} {t t' : Thr} {k k' : Kind} {g : Nat} : .begin d t k g ∈ h → .root d ∈ h →
      .begin e t' k' g ∈ h → For h d e
  | remote {d d' e : Nat} {k : Kind} {g : Nat} : .begin d' (.acc d) k g ∈ h → For h d' e → For h d e

/-- Actor `a` is waiting for actor `b`: a handler of `a` is in a call that is for a message not yet handled by `b`. -/
def Stuck (h : List Ev) (act : Nat → Nat) (a b : Nat) : Prop :=
  ∃ m d e k g, act m = a ∧ Open h m ∧ .begin d (.hnd m) k g ∈ h ∧ Pending h d ∧ For h d e ∧ Open h e ∧ act e = b

/-- `a` is waiting for an actor that waits for an actor ... that waits for `b`. -/
inductive Chain (h : List Ev) (act : Nat → Nat) : Nat → Nat → Prop
  | one {a b : Nat} : Stuck h act a b → Chain h act a b
  | more {a b c : Nat} : Stuck h act a b → Chain h act b c → Chain h act a c

/-- Handlers only wait for actors of a higher rank. -/
def Layered (h : List Ev) (act : Nat → Nat) (rank : Nat → Nat) : Prop :=
  ∀ m d e k g, .begin d (.hnd m) k g ∈ h → For h d e → rank (act m) < rank (act e)

/-- The header of the message of `d` names no originator: no handler is on the way to `d`. -/
inductive NoOrg (h : List Ev) : Nat → Prop
  | ext {d n : Nat} {k : Kind} {g : Nat} : .begin d (.ext n) k g ∈ h → NoOrg h d
  | far {d r : Nat} {k : Kind} {g : Nat} : .begin d (.acc r) k g ∈ h → NoOrg h r → NoOrg h d

/-- The originator in the header of the message of `d`, which `Received` compares with the actor addressed: the actor of
the first handler on the way to `d`, if handlers pass the header on. -/
inductive Org (h : List Ev) (act : Nat → Nat) : Nat → Nat → Prop
  | first {d m : Nat} {k : Kind} {g : Nat} : .begin d (.hnd m) k g ∈ h → NoOrg h m → Org h act d (act m)
  | next {d m o : Nat} {k : Kind} {g : Nat} : .begin d (.hnd m) k g ∈ h → Org h act m o → Org h act d o
  | far {d r o : Nat} {k : Kind} {g : Nat} : .begin d (.acc r) k g ∈ h → Org h act r o → Org h act d o

/-- A handler of the message of `m` is on the way to `d`. -/
inductive Above (h : List Ev) : Nat → Nat → Prop
  | here {d m : Nat} {k : Kind} {g : Nat} : .begin d (.hnd m) k g ∈ h → Above h d m
  | up {d m l : Nat} {k : Kind} {g : Nat} : .begin d (.hnd m) k g ∈ h → Above h m l → Above h d l
  | far {d r l : Nat} {k : Kind} {g : Nat} : .begin d (.acc r) k g ∈ h → Above h r l → Above h d l

/-- The steps the goroutines take by themselves: no new work from outside or from a handler, no timeout, no ended
context, no failed remote call. -/
def own : Act → Bool
  | .begin (.acc _) _ _ _ _ => true
  | .go _ _ | .outer _ false | .inner _ | .take _ | .finish _ | .release _ => true
  | _ => false

/-- Nothing moves by itself any more. -/
def AtRest (s : State) : Prop := ∀ a, own a = true → step s a = none

/-- Is new work begun, or `mw.Err` set? -/
def fromUser : Act → Bool
  | .begin .. | .setErr _ => true
  | _ => false

def isBegin : Act → Bool
  | .begin .. => true
  | _ => false

end Braid.CallTree.Spec
