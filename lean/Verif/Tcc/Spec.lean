import Verif.Tcc.Model

/-
What transactions should be (C82, C83).
-/
namespace Braid.Tcc

def Op.tx : Op → Nat
  | .try_ t => t
  | .confirm t => t
  | .cancel t => t

/-- The last message about a transaction. -/
def last (ops : List Op) (t : Nat) : Option Op := (ops.filter fun o => o.tx == t).getLast?

/-- A transaction is pending: the last message about it was its try. -/
def Pending (ops : List Op) (t : Nat) : Prop := last ops t = some (.try_ t)

/-- A transaction was confirmed at some time. -/
def Committed (ops : List Op) : Prop := ∃ p t q, ops = p ++ .confirm t :: q ∧ Pending p t

/-- No try while another transaction, or the same, is pending. -/
def Serial (ops : List Op) : Prop := ∀ p t q, ops = p ++ .try_ t :: q → ∀ u, ¬ Pending p u

/-- **C83**, effect: the value shows a transaction iff one is pending or was confirmed. -/
def RightValue (v new : Nat) (ops : List Op) : Prop :=
  ((Committed ops ∨ ∃ t, Pending ops t) → (runOps v new ops).value = new) ∧
  (¬ (Committed ops ∨ ∃ t, Pending ops t) → (runOps v new ops).value = v)

/-- The handler of a transaction has ended. -/
def Ended (s : State) (t : Nat) : Prop := (∃ b c, s.pc t = .failed b c) ∨ ∃ b c, s.pc t = .finished b c

/-- A participant has confirmed a transaction: it took its confirm, found its record and has removed it. -/
def Confirmed (s : State) (t : Nat) (p : Bool) : Prop := s.confs t p = .taken true ∧ (s.part p).pend t = none

/-- A participant has nothing of a transaction: it never took its try. -/
def Untouched (s : State) (t : Nat) (p : Bool) : Prop := (∀ ok, s.tries t p ≠ .taken ok) ∧ (s.part p).pend t = none

/-- **C82**: both have confirmed, or neither has anything of the transaction. -/
def Atomic (s : State) (t : Nat) : Prop :=
  (∀ p, Confirmed s t p) ∨ ∀ p, Untouched s t p

end Braid.Tcc
