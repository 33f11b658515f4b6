import Verif.Grpc.Options

/-
C126: options of a client call are used, and other values are refused.
-/
namespace Braid.Grpc
open Braid

/-- Specification: `as` consists of the options `os`, in this order. -/
def Options (as : List Arg) (os : List Nat) : Prop := as = os.map .opt

/-- Specification: `ty` is the type of the first value in `as` that is no option. -/
def FirstOther (as : List Arg) (ty : String) : Prop := ∃ os rest, as = List.map Arg.opt os ++ .other ty :: rest

theorem options_or_other (as : List Arg) : (∃ os, Options as os) ∨ ∃ ty, FirstOther as ty := by
  induction as with
  | nil => exact .inl ⟨[], rfl⟩
  | cons a as ih =>
    cases a with
    | opt n =>
      rcases ih with ⟨os, h⟩ | ⟨ty, os, rest, h⟩
      · exact .inl ⟨n :: os, by rw [Options] at h ⊢; simp [h]⟩
      · exact .inr ⟨ty, n :: os, rest, by simp [h]⟩
    | other ty => exact .inr ⟨ty, [], as, rfl⟩

theorem callLoop_map (acc os : List Nat) (rest : List Arg) : callLoop acc (os.map .opt ++ rest) = callLoop (acc ++ os) rest := by
  induction os generalizing acc with
  | nil => simp
  | cons n os ih => simp [callLoop, ih]

theorem waitLoop_eq (acc : List (Option Nat)) (as : List Arg) :
    waitLoop acc as = acc ++ as.map fun | .opt n => some n | .other _ => none := by
  induction as generalizing acc with
  | nil => simp [waitLoop]
  | cons a as ih => cases a <;> simp [waitLoop, ih]

theorem invoke_map (acc os : List Nat) (rest : List (Option Nat)) : invoke acc (os.map some ++ rest) = invoke (acc ++ os) rest := by
  induction os generalizing acc with
  | nil => simp
  | cons n os ih => simp [invoke, ih]

theorem call_options {as : List Arg} {os : List Nat} (h : Options as os) : callOpts as = .invoked os := by
  have := callLoop_map [] os []
  rw [List.append_nil, ← h] at this
  simp [callOpts, this, callLoop]

theorem call_other {as : List Arg} {ty : String} (h : FirstOther as ty) : callOpts as = .refused ty := by
  obtain ⟨os, rest, rfl⟩ := h
  simp [callOpts, callLoop_map, callLoop]

theorem wait_options {as : List Arg} {os : List Nat} (h : Options as os) : waitOpts as = .invoked os := by
  have h1 : as.map (fun | .opt n => some n | .other _ => none) = os.map some := by
    rw [h, List.map_map]; rfl
  have := invoke_map [] os []
  rw [waitOpts, waitLoop_eq, h1]
  simpa [invoke] using this

theorem wait_other {as : List Arg} {ty : String} (h : FirstOther as ty) : waitOpts as = .panicked := by
  obtain ⟨os, rest, rfl⟩ := h
  have h1 : (os.map Arg.opt).map (fun | .opt n => some n | .other _ => none) = os.map some := by
    rw [List.map_map]; rfl
  rw [waitOpts, waitLoop_eq, List.map_append, h1]
  simp [invoke_map, invoke]

/-- **C126** for `Call`: the request is sent with exactly the options given, in their order, if all values are options; otherwise the
call is refused with the type of the first value that is none, and nothing is sent. -/
theorem C126_call (as : List Arg) :
    (∀ os, callOpts as = .invoked os ↔ Options as os) ∧ (∀ ty, callOpts as = .refused ty ↔ FirstOther as ty) ∧
      callOpts as ≠ .panicked := by
  rcases options_or_other as with ⟨os, h⟩ | ⟨ty, h⟩
  · refine ⟨fun os' => ⟨fun h' => ?_, call_options⟩, fun ty => ⟨fun h' => ?_, call_other⟩, ?_⟩
    · rw [call_options h] at h'; cases h'; exact h
    · rw [call_options h] at h'; cases h'
    · rw [call_options h]; nofun
  · refine ⟨fun os' => ⟨fun h' => ?_, call_options⟩, fun ty' => ⟨fun h' => ?_, call_other⟩, ?_⟩
    · rw [call_other h] at h'; cases h'
    · rw [call_other h] at h'; cases h'; exact h
    · rw [call_other h]; nofun

/-- **C126** for `CallWait`, the part that holds: the request is sent with exactly the options given, in their order, if and only if all
values are options. What is missing: the refusal of others. -/
theorem C126_call_wait_partial (as : List Arg) (os : List Nat) : waitOpts as = .invoked os ↔ Options as os := by
  refine ⟨fun h => ?_, wait_options⟩
  rcases options_or_other as with ⟨os', h'⟩ | ⟨ty, h'⟩
  · rw [wait_options h'] at h; cases h; exact h'
  · rw [wait_other h'] at h; cases h

/-- **C126** is violated by `CallWait`: it panics whenever there is a value that is no option, and never refuses one. -/
theorem C126_call_wait_refuted (as : List Arg) : (waitOpts as = .panicked ↔ ∃ ty, FirstOther as ty) ∧ ∀ ty, waitOpts as ≠ .refused ty := by
  rcases options_or_other as with ⟨os, h⟩ | ⟨ty, h⟩
  · refine ⟨⟨fun h' => ?_, fun ⟨ty, h'⟩ => wait_other h'⟩, fun ty => ?_⟩
    · rw [wait_options h] at h'; cases h'
    · rw [wait_options h]; nofun
  · exact ⟨⟨fun _ => ⟨ty, h⟩, fun _ => wait_other h⟩, fun ty => by rw [wait_other h]; nofun⟩

example : Options [.opt 3, .opt 1] [3, 1] ∧ FirstOther [.opt 3, .other "int", .opt 1] "int" := ⟨rfl, [3], [.opt 1], rfl⟩

end Braid.Grpc
