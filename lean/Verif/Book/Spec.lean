import Verif.Book.Model
import Verif.AddressBook.Spec

/-
What the address book should show while calls overlap: the directory of what is registered for certain, in terms of
calls and returns, and the rules that callers follow.
-/
namespace Braid.Book.Spec
open AddressBook AddressBook.Spec

/-- The calls in progress after a history (given in reverse). -/
def active : List Ev → List (Nat × Op)
  | [] => []
  | .begin g o :: h => (g, o) :: active h
  | .finish g _ _ :: h => (active h).filter (·.1 ≠ g)

/-- The calls in progress after the history `h`. -/
def activeOf (h : List Ev) : List (Nat × Op) := active h.reverse

/-- The directory after an event: an actor is in it from the return of its `Register` to the call of its `Unregister`, or
of `Clear` on its node. -/
def dirStep (d : List Reg) : Ev → List Reg
  | .finish _ (.reg n ty id w) .ok => d ++ [⟨id, ty, n, w⟩]
  | .begin _ (.unreg _ id _) => d.filter (·.id ≠ id)
  | .begin _ (.clear n) => d.filter (·.node ≠ n)
  | _ => d

/-- The directory after the history `h`. -/
def dir (h : List Ev) : List Reg := h.foldl dirStep []

/-- The nodes whose `Clear` was called, as a node does when it stops. -/
def Stopped (h : List Ev) (n : Nat) : Prop := ∃ g, .begin g (.clear n) ∈ h

/-- The call registers or unregisters the id. -/
def Writes (o : Op) (id : String) : Prop :=
  (∃ n ty w, o = .reg n ty id w) ∨ (∃ n w, o = .unreg n id w)

/-- The call changes something on the account of the node. -/
def WritesNode (o : Op) (n : Nat) : Prop :=
  (∃ ty id w, o = .reg n ty id w) ∨ (∃ id w, o = .unreg n id w) ∨ o = .clear n

/-- A call that follows the rules: every id is used by one node (`own`), the calls that concern one id do not overlap,
the weight given at unregistering is that given at registering, and `Clear` is called once, alone on its node, and last.
Lookups are free. -/
def Legal (own : String → Nat) (before : List Ev) : Op → Prop
  | .reg n _ id _ => own id = n ∧ ¬ Stopped before n ∧ ∀ p ∈ activeOf before, ¬ Writes p.2 id
  | .unreg n id w => own id = n ∧ ¬ Stopped before n ∧ (∀ p ∈ activeOf before, ¬ Writes p.2 id) ∧
      ∀ r ∈ dir before, r.id = id → r.weight = w
  | .clear n => ¬ Stopped before n ∧ ∀ p ∈ activeOf before, ¬ WritesNode p.2 n
  | .get _ _ => True
  | .list _ => True

/-- All calls follow the rules. -/
def LegalHist (own : String → Nat) (h : List Ev) : Prop :=
  ∀ pre g o post, h = pre ++ .begin g o :: post → Legal own pre o

/-- Redis never failed a call that writes. -/
def Unbroken (h : List Ev) : Prop :=
  ∀ g o, .finish g o .broken ∈ h → (∃ n id, o = .get n id) ∨ ∃ ty, o = .list ty

/-- No call that may concern the id is in progress. -/
def Quiet (own : String → Nat) (h : List Ev) (id : String) : Prop :=
  ∀ p ∈ activeOf h, ¬ Writes p.2 id ∧ p.2 ≠ .clear (own id)

/-- Node ids are different for different nodes. -/
def DistinctNodes (cfg : Nat → NodeCfg) : Prop := ∀ m n, (cfg m).nodeID = (cfg n).nodeID → m = n

/-- The goroutine of an event. -/
def who : Ev → Nat
  | .begin g _ => g
  | .finish g _ _ => g

end Braid.Book.Spec
