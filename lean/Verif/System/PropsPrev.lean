import Verif.System.Props

/-
Property C22: exactly when the previous type is right.
-/
namespace Braid.System

/-- C22, exactly: after any hops the previous type is that of the last calling actor iff the last hop was within a node, or the type
has the name that the acceptor puts there. -/
theorem C22_prev_exact (h : Header) (hops : List Hop) (p : Hop) :
    (chain h (hops ++ [p])).prevTy = p.actor.ty ↔ p.remote = false ∨ p.actor.ty = "GrpcAcceptor" := by
  cases hr : p.remote with
  | false => simp [C22_prev_partial h hops p hr]
  | true => rw [C22_remote_prev_refuted h hops p hr]; simp [eq_comm]

/-- The chain of the example ends with a hop to another node. -/
example : (chain exHeader exHops).prevTy ≠ "u" :=
  fun e => by simpa using (C22_prev_exact exHeader (exHops.take 2) ⟨⟨"w", "u"⟩, true, "x", "t", "g"⟩).1 e

end Braid.System
