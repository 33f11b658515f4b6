import Verif.Logger.Lemmas

/-
C90: a logger writes where and what its options say.  C91: callers are shown as the options say, and loggers do not
influence each other.  C92: every option has an effect.
-/
namespace Braid.Logger
open Spec

/-! ### C90 -/

/-- C90: a logger is made unless an option fails, the file cannot be opened, or the encoder configuration is nil. -/
theorem C90_made (rot : Rotation → Bool) (h : Heap) (a : Nat) (opts : List Opt) :
    ((newLogger rot h a opts).2 = .err ↔ .fail ∈ opts ∨ (pattern opts ≠ "" ∧ rot (file opts) = false)) ∧
    ((newLogger rot h a opts).2 = .panic ↔
      ¬ (.fail ∈ opts ∨ (pattern opts ≠ "" ∧ rot (file opts) = false)) ∧ conf opts = some none) := by
  rw [newLogger_eq]
  split
  · simp_all
  · rename_i hn
    simp only [hn, not_false_eq_true, true_and]
    rcases hc : conf opts with _ | _ | c <;> simp

/-- C90: a record is written to a destination iff its level is high enough and the options want this destination, and
only once. -/
theorem C90_written {rot : Rotation → Bool} {h : Heap} {a : Nat} {opts : List Opt} {l : Logger}
    (hl : (newLogger rot h a opts).2 = .ok l) (lvl : Int) (stack : List Frame) :
    (∀ d, d ∈ (write l lvl stack).map Prod.fst ↔ level opts ≤ lvl ∧ Wanted opts d) ∧
    ((write l lvl stack).map Prod.fst).Nodup := by
  rw [newLogger_eq] at hl
  split at hl
  · cases hl
  · split at hl
    · cases hl
    · cases hl
      simp only [write]
      split
      · rename_i hlv
        simp only [List.map_map, Wanted]
        by_cases hp : pattern opts = ""
        · simp [hp, hlv]
        · cases ho : outStd opts <;> simp [hp, hlv]
      · rename_i hlv
        simp [hlv]

/-- Records of a logger with a file and the console. -/
example : ∃ l, (newLogger (fun _ => true) (fun _ => defaultConf) 7
      [.globPattern "x", .level 3, .outStd true, .globPattern "a.log", .level 1]).2 = .ok l ∧
    (write l 1 []).map Prod.fst = [.std, .file ⟨"a.log", "", 1073741824, 1, 0, 0⟩] ∧ write l 0 [] = [] :=
  ⟨_, rfl, by decide, by decide⟩

/-! ### C91 -/

/-- C91, first part of the full statement: the caller is shown iff this is wanted, as file and line and, if wanted, the
function, of the frame asked for. -/
def CallerShown : Prop :=
  ∀ rot h a opts l lvl stack d t, (newLogger rot h a opts).2 = .ok l → conf opts = none →
    (d, t) ∈ write l lvl stack →
    t = if caller opts then (stack[skip opts]?).map (callerAs (callerFunc opts)) else none

/-- C91, second part: making a logger does not change the loggers made later. -/
def Independent : Prop :=
  ∀ rot h a a' opts opts', a ≠ a' → (∀ x, .encoderConf (some x) ∈ opts ++ opts' → x ≠ a ∧ x ≠ a') →
    (newLogger rot (newLogger rot h a opts).1 a' opts').2 = (newLogger rot h a' opts').2

/-- C91 is violated: the configuration is copied before the format of the caller is set, so the caller is shown as zap
does by default. -/
theorem C91_format_refuted : ¬ CallerShown := by
  intro hall
  have := hall (fun _ => true) (fun _ => defaultConf) 0 [.caller true, .callerFunc true] _ 0
    [⟨["r", "a", "b.go"], 3, "f"⟩] .std (some "a/b.go:3") rfl rfl (by decide)
  exact absurd this (by decide)

/-- C91 is violated: the format is set in the configuration that was passed in, and the next logger made with it uses
it. -/
theorem C91_shared_refuted : ¬ Independent := by
  intro hall
  have := hall (fun _ => true) (fun _ => defaultConf) 0 1 [.encoderConf (some 2), .caller true] [.encoderConf (some 2)]
    (by decide) (by simp)
  exact absurd this (by decide)

/-- C91 (partial): the caller is shown iff this is wanted (and the configuration has a key for it), of the frame asked
for, with the encoder of the configuration as it was before the call. Missing from the full statement: the format. -/
theorem C91_shown_partial {rot : Rotation → Bool} {h : Heap} {a : Nat} {opts : List Opt} {l : Logger} {lvl : Int}
    {stack : List Frame} {d : Dest} {t : Option String} (hl : (newLogger rot h a opts).2 = .ok l)
    (ht : (d, t) ∈ write l lvl stack) :
    ∃ c, (c = defaultConf ∧ (conf opts = none ∨ conf opts = some (some a)) ∨
          ∃ x, conf opts = some (some x) ∧ x ≠ a ∧ c = h x) ∧
      t = if caller opts ∧ c.callerKey then (stack[skip opts]?).map (callerText c.encodeCaller) else none := by
  rw [newLogger_eq] at hl
  split at hl
  · cases hl
  · split at hl
    · cases hl
    · rename_i c hc
      cases hl
      refine ⟨upd h a defaultConf c, ?_, ?_⟩
      · rcases hco : conf opts with _ | _ | x
        · simp [hco] at hc; subst hc; simp
        · simp [hco] at hc
        · simp [hco] at hc
          subst hc
          by_cases hx : x = a
          · subst hx; simp
          · right; exact ⟨x, rfl, hx, upd_of_ne _ _ hx⟩
      · simp only [write] at ht
        split at ht
        · simp only [List.mem_map] at ht
          obtain ⟨_, _, he⟩ := ht
          cases he
          cases caller opts <;> simp
        · cases ht

/-- C91 (partial): a logger does not change later ones, unless it shows callers and the later one is made with the same
configuration. -/
theorem C91_independent_partial (rot : Rotation → Bool) (h : Heap) (a a' : Nat) (opts opts' : List Opt)
    (ha : a ≠ a') (hx : conf opts' ≠ some (some a))
    (hc : caller opts = false ∨ conf opts' = none ∨ conf opts ≠ conf opts') :
    (newLogger rot (newLogger rot h a opts).1 a' opts').2 = (newLogger rot h a' opts').2 := by
  rw [newLogger_eq, newLogger_eq rot h a' opts']
  split
  · rfl
  · rcases hco : conf opts' with _ | _ | x
    · simp
    · simp
    · by_cases hxa : x = a'
      · subst hxa; simp
      · have hne : x ≠ a := by rintro rfl; exact hx hco
        have := heap_eq rot h a opts x hne (by
          rcases hc with hc | hc | hc
          · exact .inl hc
          · rw [hc] at hco; cases hco
          · rw [hco] at hc; exact .inr hc)
        simp [upd_of_ne _ _ hxa, this]

example : (newLogger (fun _ => true) (fun _ => ⟨true, true, .other 4, 1⟩) 0 [.encoderConf (some 2), .caller true]).2 =
    .ok ⟨[.std], 0, ⟨true, true, .other 4, 1⟩, true, 0⟩ := by decide

/-! ### C92 -/

/-- An option has an effect: in some circumstances the logger is another one with it. -/
def Counts (p : Opt) : Prop :=
  ∃ rot h a opts, (newLogger rot h a (opts ++ [p])).2 ≠ (newLogger rot h a opts).2

/-- C92 (partial): which options have an effect. Missing from the full statement: the others. -/
theorem C92_counts_partial (p : Opt) : Counts p ↔ unread p = false ∧ ∀ b, p ≠ .callerFunc b := by
  constructor
  · rintro ⟨rot, h, a, opts, hne⟩
    by_cases hp : unread p = false ∧ ∀ b, p ≠ .callerFunc b
    · exact hp
    · have e : pattern (opts ++ [p]) = pattern opts ∧ file (opts ++ [p]) = file opts ∧ conf (opts ++ [p]) = conf opts ∧
          level (opts ++ [p]) = level opts ∧ caller (opts ++ [p]) = caller opts ∧ skip (opts ++ [p]) = skip opts ∧
          outStd (opts ++ [p]) = outStd opts ∧ p ≠ .fail := by
        cases p <;> simp [unread] at hp <;>
          simp [pattern, file, conf, level, caller, skip, outStd, last_concat]
      obtain ⟨e1, e2, e3, e4, e5, e6, e7, e8⟩ := e
      have e9 : Opt.fail ∈ opts ++ [p] ↔ Opt.fail ∈ opts := by simp [Ne.symm e8]
      rw [newLogger_eq, newLogger_eq, e1, e2, e3, e4, e5, e6, e7] at hne
      simp only [e9, ne_eq, not_true] at hne
  · rintro ⟨h1, h2⟩
    have go : ∀ opts : List Opt, (newLogger (fun _ => true) (fun _ => ⟨true, true, .other 4, 1⟩) 0 (opts ++ [p])).2 ≠
        (newLogger (fun _ => true) (fun _ => ⟨true, true, .other 4, 1⟩) 0 opts).2 → Counts p :=
      fun opts hne => ⟨_, _, _, opts, hne⟩
    have str : ∀ s : String, s ≠ s ++ "a" := fun s he => by
      have := congrArg String.length he
      simp at this
    cases p with
    | suffix s => cases h1
    | maxSize s => cases h1
    | maxBackups s => cases h1
    | compress s => cases h1
    | outStd b =>
      apply go [.globPattern "a", .outStd (!b)]
      cases b <;> decide
    | encoderConf x =>
      rcases x with _ | x
      · exact ⟨fun _ => true, fun _ => defaultConf, 0, [], by decide⟩
      · refine ⟨fun _ => true, fun _ => ⟨true, true, .other 4, 1⟩, x + 1, [], ?_⟩
        rw [newLogger_eq, newLogger_eq]
        have : x ≠ x + 1 := by omega
        simp [pattern, conf, last, upd_of_ne _ _ this, defaultConf]
    | level n =>
      apply go [.level (n + 1)]
      rw [newLogger_eq, newLogger_eq]
      simp [pattern, conf, level, last]; omega
    | globPattern s =>
      apply go [.globPattern (s ++ "a")]
      rw [newLogger_eq, newLogger_eq]
      by_cases hs : s = ""
      · subst hs; simp [pattern, conf, last, outStd]
      · simp [pattern, conf, last, outStd, file, hs, str s]
    | linkName s =>
      apply go [.globPattern "a", .linkName (s ++ "a")]
      rw [newLogger_eq, newLogger_eq]
      simp [pattern, conf, last, outStd, file, str s]
    | rotationSize n =>
      apply go [.globPattern "a", .rotationSize (n + 1)]
      rw [newLogger_eq, newLogger_eq]
      simp [pattern, conf, last, outStd, file]; omega
    | rotationTime n =>
      apply go [.globPattern "a", .rotationTime (n + 1)]
      rw [newLogger_eq, newLogger_eq]
      simp [pattern, conf, last, outStd, file]; omega
    | maxAge n =>
      apply go [.globPattern "a", .maxAge (n + 1)]
      rw [newLogger_eq, newLogger_eq]
      simp [pattern, conf, last, outStd, file]; omega
    | rotationCount n =>
      apply go [.globPattern "a", .rotationCount (n + 1)]
      rw [newLogger_eq, newLogger_eq]
      simp [pattern, conf, last, outStd, file]
    | caller b =>
      apply go [.caller (!b)]
      cases b <;> decide
    | callerFunc b => exact absurd rfl (h2 b)
    | callerSkip n =>
      apply go [.caller true, .callerSkip (n + 1)]
      rw [newLogger_eq, newLogger_eq]
      simp [pattern, conf, last, caller, skip]
    | fail => exact ⟨fun _ => true, fun _ => defaultConf, 0, [], by decide⟩

/-- C92 is violated: four options that limit the files are not read, and `CallerFunc` comes too late. -/
theorem C92_refuted : ¬ ∀ p, Counts p := by
  intro hall
  have := ((C92_counts_partial (.maxSize 5)).1 (hall _)).1
  exact absurd this (by decide)

/-- C91: how zap shows a caller by default, and how it is shown in the format of `options.go`: the last component of the
file name, the line and, if wanted, the function and a pair of parentheses. -/
theorem C91_text (dir : List String) (p b : String) (line : Nat) (fn : String) :
    callerText .short ⟨dir ++ [p, b], line, fn⟩ = p ++ "/" ++ b ++ ":" ++ toString line ∧
    callerText .base ⟨dir ++ [p, b], line, fn⟩ = b ++ ":" ++ toString line ∧
    callerText .baseFunc ⟨dir ++ [p, b], line, fn⟩ = b ++ ":" ++ toString line ++ " " ++ fn ++ "()" := by
  refine ⟨?_, by simp [callerText], by simp [callerText]⟩
  have : (dir ++ [p, b]).length - 2 = dir.length := by simp
  have hi : "/".intercalate [p, b] = p ++ "/" ++ b := rfl
  simp only [callerText, this, List.drop_left, hi]

end Braid.Logger
