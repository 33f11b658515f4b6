import Verif.PubSub.Model

/-
Specification of publish and subscribe (C39–C41), in terms of what can be observed.
-/
namespace Braid.PubSub.Spec

/-- The published messages, in the order of publication. -/
def pubs (h : List Ev) : List Msg := h.filterMap fun
  | .pub m => some m
  | _ => none

/-- The messages delivered to subscriber `c`, in order. -/
def deliveredTo (c : Nat) (h : List Ev) : List Msg := h.filterMap fun
  | .deliver c' m => if c' = c then some m else none
  | _ => none

/-- Subscriber `c` is on channel `g`. -/
def On (c : Nat) (g : String) (h : List Ev) : Prop := .sub c g ∈ h

/-- A group is created from the beginning of the stream only the first time. -/
def StartOnce (h : List Ev) : Prop :=
  ∀ pre g post, h = pre ++ .group g true :: post → ∀ b, .group g b ∉ pre

/-- Nothing is on its way to subscriber `c`: its loop has nothing to read, and nothing is between its loop and
its handler. -/
def AtRest (s : State) (c : Nat) : Prop :=
  (s.subs c).batch = [] ∧ (s.subs c).buf = [] ∧
  ∀ l, s.groups (s.subs c).group = some l → ∀ e ∈ s.entries, e.id ≤ l

/-- All subscribers are on channel `g`. -/
def OneChannel (g : String) (h : List Ev) : Prop := ∀ c g', .sub c g' ∈ h → g' = g

/-- No subscriber crashed, no group was removed and the stream was not deleted. -/
def Quiet (h : List Ev) : Prop :=
  ∀ e ∈ h, match e with
    | .crash _ => False
    | .destroyed _ => False
    | .dropped => False
    | _ => True

/-- Channel `g` has a right to message `m`: `m` was published after the channel was created, or the channel
reads from the beginning. -/
def Due (g : String) (m : Msg) (h : List Ev) : Prop :=
  (∃ pre post b, h = pre ++ .pub m :: post ∧ .group g b ∈ pre) ∨ (.pub m ∈ h ∧ .group g true ∈ h)

/-- Message `m` was delivered on channel `g`. -/
def DeliveredOn (g : String) (m : Msg) (h : List Ev) : Prop := ∃ c, On c g h ∧ .deliver c m ∈ h

/-- The steps of the subscribers that move a message. -/
def Internal (s : State) : Act → Prop
  | .read c => ∃ l, s.groups (s.subs c).group = some l ∧ ∃ e ∈ s.entries, l < e.id
  | .put _ => True
  | .handle _ => True
  | .del _ _ => True
  | _ => False

/-- `n` steps of the subscribers that move messages. -/
inductive Moves : State → Nat → State → List Ev → Prop
  | nil (s : State) : Moves s 0 s []
  | cons {s s1 s2 : State} {a : Act} {e1 e2 : List Ev} {n : Nat} :
      Internal s a → step s a = some (s1, e1) → Moves s1 n s2 e2 → Moves s (n + 1) s2 (e1 ++ e2)

/-- No message can be moved. -/
def Stuck (s : State) : Prop := ∀ a, Internal s a → step s a = none

end Braid.PubSub.Spec
