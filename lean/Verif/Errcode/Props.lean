import Verif.Errcode.Spec
/-
C56: error codes compare by code.
-/
namespace Braid.Errcode
open Spec

/-- C56: two codes are equal exactly if they stand for the same number, where nil stands for 0. -/
theorem C56_by_number {a b : Option Code} {m n : Int} (ha : Number a m) (hb : Number b n) :
    equal a b = true ↔ m = n := by
  cases ha <;> cases hb <;> simp [equal, OK]

/-- C56: equality of codes is an equivalence. -/
theorem C56_equivalence : (∀ a, equal a a = true) ∧ (∀ a b, equal a b = true → equal b a = true) ∧
    ∀ a b c, equal a b = true → equal b c = true → equal a c = true := by
  refine ⟨?_, ?_, ?_⟩
  · intro a; simp [equal]
  · intro a b h; simp only [equal, beq_iff_eq] at *; exact h.symm
  · intro a b c h1 h2; simp only [equal, beq_iff_eq] at *; exact h1.trans h2

theorem carries_root {c : Code} {e : Err} (h : Carries c e) : e.root = .code c := by
  induction h with
  | code => rfl
  | wrap _ ih => exact ih

theorem root_cases (e : Err) : (∃ c, Carries c e) ∨ ∃ t, e.root = .other t := by
  induction e with
  | code c => exact Or.inl ⟨c, .code⟩
  | wrap i t ih =>
    rcases ih with ⟨c, h⟩ | ⟨t', h⟩
    · exact Or.inl ⟨c, .wrap h⟩
    · exact Or.inr ⟨t', h⟩
  | other t => exact Or.inr ⟨t, rfl⟩

/-- C56: the cause of nil is OK, and the cause of a code, wrapped or not, is that code; an error carries at most one
code. -/
theorem C56_cause : cause none = OK ∧ (∀ c e, Carries c e → cause (some e) = c) ∧
    ∀ c c' e, Carries c e → Carries c' e → c = c' := by
  refine ⟨rfl, ?_, ?_⟩
  · intro c e h; simp only [cause, carries_root h]
  · intro c c' e h h'
    have := (carries_root h).symm.trans (carries_root h')
    exact Err.code.inj this

/-- C56: `EqualError` compares the number of the code that the error carries; nil has number 0. -/
theorem C56_equalError (c : Code) : (equalError c none = true ↔ c.code = 0) ∧
    ∀ d e, Carries d e → (equalError c (some e) = true ↔ c.code = d.code) := by
  refine ⟨?_, ?_⟩
  · simp only [equalError, cause, OK, beq_iff_eq]; exact eq_comm
  · intro d e h
    simp only [equalError, C56_cause.2.1 d e h, beq_iff_eq]; exact eq_comm

theorem noCode_cause {e : Err} (h : NoCode e) : cause (some e) = ofString e.text := by
  rcases root_cases e with ⟨c, hc⟩ | ⟨t, ht⟩
  · exact absurd hc (h c)
  · simp only [cause, ht]

/-- C56, the part that holds of its last sentence: an error that carries no code and has a text is not equal to a
code with number 0 or more. Full claim: any other error is never equal to OK; refuted below for errors without a
text. -/
theorem C56_other_not_ok_partial {e : Err} (h : NoCode e) (ht : e.text ≠ "") {c : Code} (hc : 0 ≤ c.code) :
    equalError c (some e) = false := by
  simp only [equalError, noCode_cause h, ofString, if_neg ht, beq_eq_false_iff_ne]
  omega

/-- C56 is violated: an error with an empty text is equal to OK. -/
theorem C56_empty_text_refuted : ∃ e : Err, NoCode e ∧ equalError OK (some e) = true ∧ cause (some e) = OK :=
  ⟨.other "", (fun _ h => by cases h), rfl, rfl⟩

/-- It is the only one: wrapped errors always have a text. -/
theorem C56_empty_text_only {e : Err} (h : NoCode e) (ht : e.text = "") : e = .other "" := by
  cases e with
  | code c => exact absurd .code (h c)
  | other t => simp only [Err.text] at ht; rw [ht]
  | wrap i t =>
    exfalso
    have h2 := congrArg String.length ht
    simp only [Err.text, String.length_append] at h2
    have : (": " : String).length = 2 := rfl
    have : ("" : String).length = 0 := rfl
    omega

/-- All errors that carry no code, and have a text, are equal to each other's code and to `Unknow`. -/
theorem C56_others_unknow {e : Err} (h : NoCode e) (ht : e.text ≠ "") : equalError unknow (some e) = true := by
  simp only [equalError, noCode_cause h, ofString, if_neg ht, unknow]
  rfl

/-- C56: `New` never makes a code that is equal to OK or to an error without a code. -/
theorem C56_new {n : Int} {m : String} {c : Code} (h : new n m = some c) :
    equal (some c) (some OK) = false ∧ equal (some c) none = false ∧ ∀ e, NoCode e → equalError c (some e) = false := by
  unfold new at h
  split at h
  · cases h
  · cases h
    refine ⟨?_, ?_, ?_⟩
    · simp only [equal, OK, Option.getD, beq_eq_false_iff_ne]; omega
    · simp only [equal, OK, Option.getD, beq_eq_false_iff_ne]; omega
    · intro e he
      simp only [equalError, noCode_cause he, ofString, beq_eq_false_iff_ne]
      split
      · simp only [OK]; omega
      · simp only; omega

/-- The example: a code wrapped twice, another one with the same number, and an error without a code. -/
example : Carries ⟨7, "seven"⟩ (.wrap (.wrap (.code ⟨7, "seven"⟩) "a") "b") ∧
    equalError ⟨7, "sept"⟩ (some (.wrap (.wrap (.code ⟨7, "seven"⟩) "a") "b")) = true ∧ NoCode (.wrap (.other "") "a") ∧
    equalError OK (some (.wrap (.other "") "a")) = false :=
  ⟨.wrap (.wrap .code), by decide, (fun _ h => by cases h with | wrap h => cases h), by decide⟩

end Braid.Errcode
