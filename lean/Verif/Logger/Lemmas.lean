import Verif.Logger.Spec
import Mathlib.Data.List.Induction

/-
Helper lemmas: the options are what the list says.
-/
namespace Braid.Logger
open Spec

theorem last_concat {α : Type} (sel : Opt → Option α) (d : α) (opts : List Opt) (p : Opt) :
    last sel d (opts ++ [p]) = (sel p).getD (last sel d opts) := by
  simp only [last, List.filterMap_append, List.filterMap_cons, List.filterMap_nil]
  cases sel p <;> simp

theorem applyOpts_append (o : Options) (l1 l2 : List Opt) :
    applyOpts o (l1 ++ l2) = (applyOpts o l1).bind (applyOpts · l2) := by
  induction l1 generalizing o with
  | nil => rfl
  | cons p ps ih =>
    simp only [List.cons_append, applyOpts]
    cases applyOpt o p with
    | none => rfl
    | some o' => exact ih o'

/-- The options, as the list says. -/
theorem applyOpts_eq (a : Nat) (opts : List Opt) :
    applyOpts (defaults a) opts = if .fail ∈ opts then none else some
      { suffix := last (fun | .suffix s => some s | _ => none) "" opts
        maxSize := last (fun | .maxSize s => some s | _ => none) 1024 opts
        maxAge := 7
        maxBackups := last (fun | .maxBackups s => some s | _ => none) 30 opts
        compress := last (fun | .compress s => some s | _ => none) false opts
        outStd := outStd opts
        encoderConf := (conf opts).getD (some a)
        level := level opts
        caller := caller opts
        callerFunc := callerFunc opts
        callerSkip := skip opts
        globPattern := pattern opts
        linkName := (file opts).linkName
        rotationSize := (file opts).size
        rotationTime := (file opts).time
        logMaxAge := (file opts).maxAge
        rotationCount := (file opts).count } := by
  induction opts using List.reverseRecOn with
  | nil => rfl
  | append_singleton l p ih =>
    rw [applyOpts_append, ih]
    by_cases hf : Opt.fail ∈ l
    · simp [hf]
    · cases p <;> simp [hf, applyOpts, applyOpt, last_concat, outStd, conf, level, caller, callerFunc, skip, pattern, file]

/-- `NewLogger` in terms of the list of options. -/
theorem newLogger_eq (rot : Rotation → Bool) (h : Heap) (a : Nat) (opts : List Opt) :
    (newLogger rot h a opts).2 =
      if .fail ∈ opts ∨ (pattern opts ≠ "" ∧ rot (file opts) = false) then .err
      else match (conf opts).getD (some a) with
        | none => .panic
        | some c => .ok ⟨(if pattern opts = "" then [.std] else if outStd opts then [.std, .file (file opts)]
            else [.file (file opts)]), level opts, upd h a defaultConf c, caller opts,
            if caller opts then skip opts else 0⟩ := by
  simp only [newLogger, applyOpts_eq]
  by_cases hf : Opt.fail ∈ opts
  · simp [hf]
  · simp only [hf, if_false, false_or, dests, rotation]
    by_cases hp : pattern opts = ""
    · simp only [hp, ne_eq, not_true, if_false, false_and, if_true]
      cases (conf opts).getD (some a) with
      | none => rfl
      | some c => cases hc : caller opts <;> simp
    · have e : (Rotation.mk (pattern opts) (file opts).linkName (file opts).size (file opts).time (file opts).maxAge
        (file opts).count) = file opts := rfl
      simp only [hp, ne_eq, not_false_eq_true, if_true, true_and, if_false, e]
      cases hr : rot (file opts) with
      | false => simp
      | true =>
        cases ho : outStd opts <;> cases (conf opts).getD (some a) with
        | none => rfl
        | some c => cases hc : caller opts <;> simp

theorem heap_eq (rot : Rotation → Bool) (h : Heap) (a : Nat) (opts : List Opt) (x : Nat) (hx : x ≠ a)
    (hc : caller opts = false ∨ (conf opts) ≠ some (some x)) : (newLogger rot h a opts).1 x = h x := by
  simp only [newLogger, applyOpts_eq]
  by_cases hf : Opt.fail ∈ opts
  · simp [hf, upd_of_ne _ _ hx]
  · simp only [hf, if_false]
    split
    · simp [upd_of_ne _ _ hx]
    · split
      · simp [upd_of_ne _ _ hx]
      · rename_i c hcc
        split
        · rename_i hcl
          have : x ≠ c := by
            rintro rfl
            rcases hc with hc | hc
            · simp [hc] at hcl
            · cases hco : conf opts with
              | none => simp [hco] at hcc; exact hx hcc.symm
              | some y => simp [hco] at hcc; exact hc (by rw [hco, hcc])
          simp [upd_of_ne _ _ this, upd_of_ne _ _ hx]
        · simp [upd_of_ne _ _ hx]

end Braid.Logger
