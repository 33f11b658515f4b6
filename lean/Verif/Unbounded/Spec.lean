import Verif.Unbounded.Model

/-
Specification vocabulary for the unbounded buffer, in terms of the observable history only.
-/
namespace Braid.Unbounded
variable {T : Type}

/-- The values given to `Put`, in the order in which the calls acquired the lock. -/
def puts (h : List (Ev T)) : List T :=
  h.filterMap fun | .put t => some t | .recv _ => none

/-- The values received from `Get()`, in order. -/
def recvs (h : List (Ev T)) : List T :=
  h.filterMap fun | .recv t => some t | .put _ => none

@[simp] theorem puts_append (a b : List (Ev T)) : puts (a ++ b) = puts a ++ puts b :=
  List.filterMap_append
@[simp] theorem recvs_append (a b : List (Ev T)) : recvs (a ++ b) = recvs a ++ recvs b :=
  List.filterMap_append
@[simp] theorem puts_nil : puts ([] : List (Ev T)) = [] := rfl
@[simp] theorem recvs_nil : recvs ([] : List (Ev T)) = [] := rfl
@[simp] theorem puts_put (t : T) : puts [Ev.put t] = [t] := rfl
@[simp] theorem puts_recv (t : T) : puts [Ev.recv t] = [] := rfl
@[simp] theorem recvs_put (t : T) : recvs [Ev.put t] = [] := rfl
@[simp] theorem recvs_recv (t : T) : recvs [Ev.recv t] = [t] := rfl

/-- No `Put` or `Load` is in progress. -/
def NoCall (s : St T) : Prop := ∀ g, s.pc g = .idle ∨ s.pc g = .got

/-- No reader sits between its receive and its `Load`. -/
def ReadersLoaded (s : St T) : Prop := ∀ g, s.pc g ≠ .got

/-- The actions of one reader `g` that receives and then calls `Load` to its end, `n` times.
The number of steps of a `Load` depends on the backlog that is left. -/
def drainActs (T : Type) (g : Nat) : Nat → List (Act T)
  | 0 => []
  | 1 => [.recv g, .load g, .next g, .next g]
  | n + 2 => [.recv g, .load g, .next g, .next g, .next g, .next g] ++ drainActs T g (n + 1)

end Braid.Unbounded
