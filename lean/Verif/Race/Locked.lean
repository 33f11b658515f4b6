import Verif.Race.Spec
import Verif.Future.Model
import Verif.Unbounded.Model

/-
The plain variables of futures and of unbounded buffers, and who uses them.
-/
namespace Braid.Race
open Braid

/-- The plain fields of futures that are used after the future was made (`done` is a channel). (core/actor/actor_reenter_impl.go:11-16) -/
inductive FutVar
  /-- `result` of a future -/
  | result (f : Nat)
  /-- `callbacks` of a future -/
  | callbacks (f : Nat)
deriving DecidableEq

/-- Whose action it is; `none`: `NewFuture` and `IsCompleted`, which use no plain variable of a future that others have.
(core/actor/actor_reenter_impl.go:18-66) -/
def futWho {V : Type} : Future.Act V → Option Future.Tid
  | .new => none
  | .then_ u _ => some (.inl u)
  | .complete u _ _ => some (.inl u)
  | .isCompleted _ => none
  | .next t => some t

/-- Which plain variables an action uses. (core/actor/actor_reenter_impl.go:29: `result`; L34: `callbacks`; L50: `result`;
L53: `callbacks`; L54: `result`; L56: `callbacks`) -/
def futAcc {V : Type} (s : Future.St V) : Future.Act V → List (Acc FutVar)
  | .next t =>
    match s.pc t with
    | .thenLate f _ => [⟨.result f, false⟩]
    | .thenAppend f _ => [⟨.callbacks f, false⟩, ⟨.callbacks f, true⟩]
    | .compSet f _ => [⟨.result f, true⟩]
    | .compClose f _ => [⟨.callbacks f, false⟩]
    | .compSpawn f (_ :: _) => [⟨.result f, false⟩]
    | .compSpawn f [] => [⟨.callbacks f, true⟩]
    | _ => []
  | _ => []

/-- What goroutines do with a buffer: what the model of buffers has, and `Len`. (lib/unbounded/unbounded.go:21-57) -/
inductive BufAct (T : Type)
  | op (a : Unbounded.Act T)
  /-- goroutine `g` calls `Len()` -/
  | len (g : Nat)

/-- `Len` does not take the lock. (lib/unbounded/unbounded.go:55-57) -/
def bufStep {T : Type} (s : Unbounded.St T) : BufAct T → Option (Unbounded.St T × List (Unbounded.Ev T))
  | .op a => Unbounded.step s a
  | .len g => if (s.pc g).outside then some (s, []) else none

/-- lib/unbounded/unbounded.go:17-57. -/
def bufSys (T : Type) : Lts (Unbounded.St T) (BufAct T) (Unbounded.Ev T) := ⟨Unbounded.init T, bufStep⟩

/-- Whose action it is. (lib/unbounded/unbounded.go:21-57) -/
def bufWho {T : Type} : BufAct T → Nat
  | .op (.put g _) => g
  | .op (.load g) => g
  | .op (.recv g) => g
  | .op (.next g) => g
  | .len g => g

/-- The uses of `backlog`, the only plain variable; its elements count as parts of it. (lib/unbounded/unbounded.go:24, 32, 39, 41-43, 56) -/
def bufAcc {T : Type} (s : Unbounded.St T) : BufAct T → List (Acc Unit)
  | .op (.next g) =>
    match s.pc g with
    | .putCheck _ => [⟨(), false⟩]
    | .putAppend _ => [⟨(), false⟩, ⟨(), true⟩]
    | .loadCheck => [⟨(), false⟩]
    | .loadSelect => [⟨(), false⟩]
    | .loadDrop => [⟨(), false⟩, ⟨(), true⟩]
    | _ => []
  | .len _ => [⟨(), false⟩]
  | _ => []

end Braid.Race
