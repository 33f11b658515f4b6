import Verif.Race.Spec
import Verif.Fail.Model

/-
Message wrappers and who uses them: the model of `Verif/Fail` (calls to actors of the same node), with callers that use
the wrapper again when their call has returned.
-/
namespace Braid.Race
open Braid

variable {E D : Type}

/-- What happens: a step of a call, or the caller of `c`, whose call has returned, looks at the wrapper or changes it, as in
`mw.Err`, `mw.Res.Body` or the next use of its builder. (core/node/system_impl.go:293-345, router/msg/msg.go:20-133) -/
inductive WAct (E D : Type)
  | call (a : Fail.Act E D)
  | use (c : Nat)

/-- The steps. A use of the wrapper by the caller is not seen by the calls: the values that are lost or mixed up when there is
a race are not modelled, only that there is one. (core/node/system_impl.go:293-345) -/
def wstep (cfg : Fail.Cfg E D) (s : Fail.State E D) : WAct E D → Option (Fail.State E D × List (Fail.Ev E D))
  | .call a => Fail.step cfg s a
  | .use c =>
    match s.call c with
    | some x =>
      match x.c with
      | .returned _ => some (s, [])
      | _ => none
    | none => none

/-- Calls within a node and the callers. (core/node/system_impl.go:293-345) -/
def wsys (cfg : Fail.Cfg E D) : Lts (Fail.State E D) (WAct E D) (Fail.Ev E D) := ⟨Fail.init, wstep cfg⟩

/-- The goroutines. (core/node/system_impl.go:293-345, core/actor/actor_runtime_impl.go:303-346) -/
inductive WWho
  /-- the goroutine that makes call `c` -/
  | caller (c : Nat)
  /-- the goroutine of L300-321 -/
  | waiter (c : Nat)
  /-- the loop of actor `a` -/
  | loop (a : Nat)
  /-- somebody who begins a call -/
  | new
deriving DecidableEq

/-- Whose action it is. (core/node/system_impl.go:293-345, core/actor/actor_runtime_impl.go:303-346) -/
def wrapWho : WAct E D → WWho
  | .call (.begin _ _ _) => .new
  | .call (.recv c _) => .caller c
  | .call (.take a) => .loop a
  | .call (.run a) => .loop a
  | .call (.release a) => .loop a
  | .call (.waiter c _) => .waiter c
  | .call (.ret c) => .caller c
  | .call (.ctxEnd c) => .caller c
  | .use c => .caller c

/-- Which wrappers an action uses; number `c` stands for `Req`, `Res` and `Err` of the wrapper of call `c` (`Ctx` and `Done`
are left to `Verif/Reuse`). A chain and a caller may do anything with it (actor_runtime_impl.go:338-345: without a chain the
header is read); the waiter reads `Err` and sets it if it is nil (core/node/system_impl.go:313-317); a caller whose context
has ended reads and writes it (L333-338). -/
def wrapAcc (cfg : Fail.Cfg E D) (s : Fail.State E D) : WAct E D → List (Acc Nat)
  | .call (.run a) =>
    match s.busy a with
    | some c =>
      match s.call c with
      | some x => [⟨c, (cfg.chain a x.event).isSome⟩]
      | none => []
    | none => []
  | .call (.waiter c true) =>
    match s.call c with
    | some x => if x.wt = .waiting then [⟨c, x.w.err.isNone⟩] else []
    | none => []
  | .call (.ctxEnd c) => [⟨c, true⟩]
  | .use c => [⟨c, true⟩]
  | _ => []

end Braid.Race
