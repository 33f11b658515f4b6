import Verif.Span.Model

/-
What traces of calls should be (C80, C81).
-/
namespace Braid.Span

/-- The tracer reads what it wrote. -/
def Lawful (tr : Tracer) : Prop := ∀ c, tr.dec (tr.enc c) = some c

/-- **C80**, spans: one client span, a child of the caller's; one server span, a child of the client span. -/
def Linked (tr : Tracer) (reserved : String → Bool) (s : State) (root md : Option Nat) : Prop :=
  ∃ c a s1 sv s2, client tr s root md = (s1, c, a) ∧ server tr s1 (carry reserved (s1.heap a)) = (s2, some sv) ∧
    s2.spans = s.spans ++ [⟨c, root, .client⟩, ⟨sv, some c, .server⟩] ∧ c ≠ sv

/-- The metadata of the caller's context. -/
def outgoing (s : State) (md : Option Nat) : Md := match md with | some a => s.heap a | none => fun _ => []

/-- The operations of one call span. -/
def execOps (ops : List Op) : Option (CState × List Ev) := callSys.exec callSys.init ops

/-- How often the `k`th of the spans started by the operations is finished, counting from 0: by every `End` between its
`Begin` and the next one. -/
def ends : List Op → Nat → Nat
  | [], _ => 0
  | .begin _ :: os, 0 => endsNow os
  | .begin _ :: os, k + 1 => ends os k
  | _ :: os, k => ends os k
where
  endsNow : List Op → Nat
  | [] => 0
  | .begin _ :: _ => 0
  | .beginBad :: os => endsNow os
  | .fin :: os => endsNow os + 1

/-- The contexts of the `Begin`s. -/
def parents (ops : List Op) : List (Option Nat) := ops.filterMap fun o => match o with | .begin p => some p | _ => none

/-- The spans started, with their parents. -/
def starts (h : List Ev) : List (Nat × Option Nat) := h.filterMap fun e => match e with | .started i p => some (i, p) | _ => none

/-- **C81**: every span started is finished exactly once. -/
def OnceEach (h : List Ev) : Prop := ∀ i p, Ev.started i p ∈ h → h.count (.finished i) = 1

/-- `Begin` and `End` alternate, beginning with `Begin`. -/
inductive Alternate : List Op → Prop
  | nil : Alternate []
  | pair (p : Option Nat) {os : List Op} : Alternate os → Alternate (.begin p :: .fin :: os)

end Braid.Span
