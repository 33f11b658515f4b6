import Verif.CallTree.Model

/-
Specification of call trees, on histories only (C20, C21).
-/
namespace Braid.CallTree.Spec

/-- Operation `d` was started by the handler of the message of `m` with the group of that message. -/
def Own (h : List Ev) (m d : Nat) : Prop :=
  ∃ k g t k', .begin d (.hnd m) k g ∈ h ∧ k ≠ .remote ∧ .begin m t k' g ∈ h

/-- `d` is a nested call of `m`: a `Call` made by the handler of the message of `m`, or a `Send` made
there with the group of that message, or the call made by the acceptor for the remote call `m`. -/
def Nested (h : List Ev) (m d : Nat) : Prop :=
  (∃ k g, .begin d (.hnd m) k g ∈ h ∧ k ≠ .send) ∨ Own h m d ∨ (∃ k g, .begin d (.acc m) k g ∈ h)

/-- `d` belongs to the call tree of `c`. -/
inductive Tree (h : List Ev) (c : Nat) : Nat → Prop
  | top : Tree h c c
  | nested {m d : Nat} : Tree h c m → Nested h m d → Tree h c d

/-- `d` is below `c` with the same group all along. -/
inductive OwnTree (h : List Ev) (c : Nat) : Nat → Prop
  | top : OwnTree h c c
  | own {m d : Nat} : OwnTree h c m → Own h m d → OwnTree h c d

/-- `d` is a call that waits, or is made with the group of its parent: it is a root call, a remote call,
or a call of a handler with the group of the message handled. -/
def Waits (h : List Ev) (d : Nat) : Prop :=
  .root d ∈ h ∨ (∃ t g, .begin d t .remote g ∈ h) ∨ (∃ m, Own h m d)

/-- Nothing in the call tree of `c` ran into a timeout, an ended context or a failed remote call. -/
def Calm (h : List Ev) (c : Nat) : Prop :=
  ∀ d, Tree h c d → .timeout d ∉ h ∧ .expired d ∉ h

end Braid.CallTree.Spec
