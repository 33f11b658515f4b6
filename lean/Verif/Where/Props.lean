import Verif.Where.Model
import Verif.Names.Props

/-
C135: errors and log records show the place in the source that they come from.
-/
namespace Braid.Where

open Names

/-- Some program: a handler, called by the loop of an actor, in a goroutine. -/
def st0 : Stack := [⟨"game.login", path "/srv/game/login.go", 12⟩, ⟨"actor.update", path "/srv/braid/actor.go", 210⟩,
  ⟨"runtime.goexit", path "/go/asm.s", 1⟩]

/-- The place that an error should show: the last component of the path of the file, and the line, where the function is that
makes the error. -/
def IsPlace (f : Frame) (p : Bytes × Nat) : Prop := LastComponent f.file p.1 ∧ p.2 = f.line

/-- The files that `shortFile` can shorten (C77): all but those in the root directory. -/
def NotInRoot (f : Frame) : Prop := slash ∈ f.file.drop 1 ∨ slash ∉ f.file

/-- C135: `New` and `Unknow` note the place where they are called, whatever the stack is above. -/
theorem C135_errcode {f : Frame} (hf : NotInRoot f) (st : Stack) {e : Int} (he : 0 < e) :
    (∃ p, new e (f :: st) = some p ∧ IsPlace f p) ∧ IsPlace f (unknow (f :: st)) := by
  refine ⟨⟨(shortFile f.file, f.line), ?_, C77_shortFile_partial _ hf, rfl⟩, C77_shortFile_partial _ hf, rfl⟩
  unfold new
  rw [if_neg (by omega)]
  rfl

/-- An error of the program above. -/
example : new 7 st0 = some (path "login.go", 12) ∧ unknow st0 = (path "login.go", 12) := by decide +kernel

/-- C135 (exactly): `Add`, which is exported too, notes the place where the function that calls it was called; without such a
function, line 0 of no file. -/
theorem C135_add (f : Frame) (st : Stack) :
    (st = [] → add (f :: st) = ([], 0)) ∧ ∀ g r, st = g :: r → NotInRoot g → IsPlace g (add (f :: st)) :=
  ⟨by rintro rfl; rfl, by rintro g r rfl hg; exact ⟨C77_shortFile_partial _ hg, rfl⟩⟩

example : add st0 = (path "actor.go", 210) := by decide +kernel

/-- The full statement for `Add`. -/
def AddShowsPlace : Prop := ∀ f st, NotInRoot f → IsPlace f (add (f :: st))

/-- C135 is violated: an error made with `Add` shows the wrong place. -/
theorem C135_add_refuted : ¬ AddShowsPlace := by
  intro h
  have := (h ⟨"game.login", path "/srv/game/login.go", 12⟩ st0.tail (by unfold NotInRoot; decide +kernel)).2
  revert this
  decide +kernel

/-- C135: the field `stack_trace` of a record of `ErrorF` or `WarnF` begins with two functions of the package; then the
function follows that made the record, and those that called it, if there are at most 62; otherwise the innermost 62. -/
theorem C135_trace (skip : Nat) (st : Stack) {f : Fn} (hf : f = .errorF ∨ f = .warnF) :
    ∃ r t, callFn skip f st = some r ∧ r.trace = some t ∧ t.drop 2 = st.take 62 ∧ (∀ a ∈ t.take 2, a.file = path "lib/log/helper.go") ∧
      (t.drop 2 = st ↔ st.length ≤ 62) := by
  have key : ∀ a b : Frame, a.file = path "lib/log/helper.go" → b.file = path "lib/log/helper.go" →
      ([a, b] ++ st.take 62).drop 2 = st.take 62 ∧
      (∀ c ∈ ([a, b] ++ st.take 62).take 2, c.file = path "lib/log/helper.go") ∧
      (([a, b] ++ st.take 62).drop 2 = st ↔ st.length ≤ 62) := by
    intro a b ha hb
    refine ⟨rfl, ?_, ?_⟩
    · intro c hc
      simp at hc
      rcases hc with rfl | rfl
      · exact ha
      · exact hb
    · change st.take 62 = st ↔ _
      refine ⟨fun h => ?_, List.take_of_length_le⟩
      have := congrArg List.length h
      rw [List.length_take] at this
      omega
  rcases hf with rfl | rfl
  · exact ⟨_, _, rfl, rfl, key _ _ rfl rfl⟩
  · exact ⟨_, _, rfl, rfl, key _ _ rfl rfl⟩

/-- The other functions add no trace. -/
theorem C135_no_trace (skip : Nat) (st : Stack) {f : Fn} (hf : f ≠ .errorF) (hw : f ≠ .warnF) :
    ∃ r, callFn skip f st = some r ∧ r.trace = none := by
  cases f <;> first | exact absurd rfl hf | exact absurd rfl hw | exact ⟨_, rfl, rfl⟩

/-- C135: if the logger skips two frames (`WithCallerSkip(2)`), every function of the package shows the place where it is
called. -/
theorem C135_caller_partial (g : Frame) (st : Stack) (f : Fn) :
    ∃ r, callFn 2 f (g :: st) = some r ∧ r.caller = some g := by
  cases f <;> exact ⟨_, rfl, rfl⟩

/-- The full statement for loggers that skip `skip` frames: functions of the package and methods show the place where they are
called. -/
def CallerShown (skip : Nat) : Prop :=
  (∀ g st f r, callFn skip f (g :: st) = some r → r.caller = some g) ∧
  ∀ g st m r, callMethod skip m (g :: st) = some r → r.caller = some g

/-- C135 is violated by the value set by `NewOptions`, 0 (options.go L84): every record of every function shows `helper.go`,
whoever calls. -/
theorem C135_default_refuted (st : Stack) (f : Fn) :
    ∃ r c, callFn 0 f st = some r ∧ r.caller = some c ∧ c.file = path "lib/log/helper.go" := by
  cases f <;> exact ⟨_, _, rfl, rfl, rfl⟩

/-- C135: the methods of a `ServerLog` show the place where they are called if the logger skips one frame. -/
theorem C135_method_partial (g : Frame) (st : Stack) (m : Method) {r : Shown} (hr : callMethod 1 m (g :: st) = some r) :
    r.caller = some g := by
  cases m with
  | log l =>
    simp only [callMethod, log] at hr
    repeat' split at hr
    all_goals first | cases hr; rfl | cases hr
  | systemLog l =>
    simp only [callMethod, systemLog] at hr
    repeat' split at hr
    all_goals first | cases hr; rfl | cases hr
  | systemReqInfo => cases hr; rfl

/-- C135 is violated whatever is skipped: the functions of the package and the methods need different values, so a logger used
in both ways shows wrong places. -/
theorem C135_caller_refuted (skip : Nat) : ¬ CallerShown skip := by
  rintro ⟨h1, h2⟩
  match skip with
  | 0 =>
    obtain ⟨r, c, hr, hc, hf⟩ := C135_default_refuted (⟨"game.login", path "/srv/game/login.go", 12⟩ :: []) .infoF
    have := h1 _ _ _ _ hr
    rw [hc] at this
    cases this
    revert hf
    decide +kernel
  | 1 =>
    have := h1 ⟨"game.login", path "/srv/game/login.go", 12⟩ [] .infoF _ rfl
    revert this
    decide +kernel
  | n + 2 =>
    have := h2 ⟨"game.login", path "/srv/game/login.go", 12⟩ [] (.log 0) _ rfl
    simp [zapLog] at this

/-- Both kinds of call in one program. -/
example : (callFn 2 .errorF st0).map (·.caller) = some (st0[0]?) ∧ (callFn 2 .errorF st0).bind (·.trace.map (·.length)) = some 5 ∧
    (callMethod 2 (.log 2) st0).map (·.caller) = some (st0[1]?) ∧ (callMethod 1 (.log 2) st0).map (·.caller) = some (st0[0]?) := by
  decide +kernel

/-- A recursion so deep that the trace ends before it begins. -/
example : ∃ st : Stack, ¬ st.length ≤ 62 ∧ ∃ r t, callFn 2 .warnF st = some r ∧ r.trace = some t ∧ t.drop 2 ≠ st := by
  refine ⟨List.replicate 100 ⟨"game.walk", path "/srv/game/walk.go", 3⟩, by simp, ?_⟩
  obtain ⟨r, t, h1, h2, _, _, h5⟩ := C135_trace 2 (List.replicate 100 ⟨"game.walk", path "/srv/game/walk.go", 3⟩) (.inr rfl)
  exact ⟨r, t, h1, h2, fun h => absurd (h5.1 h) (by simp)⟩

end Braid.Where
