import Verif.LogLib.Props

/-
Properties C78 and C79: exactly when a flow keeps its fields and when a log call writes its record.
-/
namespace Braid.LogLib

theorem foldl_encode_of_mem (fs : List Simple) (m : String → Option Nat) (k : String) (hk : ∃ s ∈ fs, s.key = k) :
    ∃ s ∈ fs, s.key = k ∧ fs.foldl encode m k = some s.val := by
  induction fs generalizing m with
  | nil => obtain ⟨s, hs, _⟩ := hk; cases hs
  | cons x fs ih =>
    rw [List.foldl_cons]
    by_cases h : ∃ s ∈ fs, s.key = k
    · obtain ⟨s, h1, h2, h3⟩ := ih (encode m x) h
      exact ⟨s, List.mem_cons_of_mem _ h1, h2, h3⟩
    · have hx : x.key = k := by
        obtain ⟨s, hs, e⟩ := hk
        rcases List.mem_cons.1 hs with rfl | hs
        · exact e
        · exact absurd ⟨s, hs, e⟩ h
      refine ⟨x, List.mem_cons_self, hx, ?_⟩
      rw [foldl_encode fs _ k (fun s hs e => h ⟨s, hs, e⟩)]
      simp [encode, hx]

/-- **C78**, flows, exactly: with a key, every field is kept iff no two fields for the object have one name and different
values. -/
theorem C78_exact (f : Flow) (key : String) (p : String → Bool) (hk : key ≠ "") :
    KeepsAll f key p ↔ ∀ s ∈ all f, ∀ s' ∈ all f, p s.key = true → s.key = s'.key → s.val = s'.val := by
  constructor
  · rintro ⟨tail, -, ⟨h2, -⟩ | ⟨-, m, rfl, h3, -⟩⟩ s hs s' hs' hp he
    · have : s ∈ inner p (all f) := List.mem_filter.2 ⟨hs, hp⟩
      rw [h2] at this; cases this
    · have a1 := h3 s (List.mem_filter.2 ⟨hs, hp⟩)
      have a2 := h3 s' (List.mem_filter.2 ⟨hs', he ▸ hp⟩)
      rw [← he, a1] at a2
      exact Option.some.inj a2
  · intro h
    unfold KeepsAll taDataFields
    rw [if_neg hk, zapFields_all, split_spec]
    simp only [Bool.false_or, List.nil_append]
    by_cases hi : inner p (all f) = []
    · refine ⟨[], ?_, .inl ⟨hi, rfl⟩⟩
      simp [hi]
    · refine ⟨[⟨key, .obj ((inner p (all f)).foldl encode fun _ => none)⟩], ?_, .inr ⟨hi, _, rfl, ?_, ?_⟩⟩
      · have : (!(inner p (all f)).isEmpty) = true := by simpa using hi
        simp [this]
      · intro s hs
        obtain ⟨s', h1, h2, h3⟩ := foldl_encode_of_mem _ (fun _ => none) s.key ⟨s, hs, rfl⟩
        obtain ⟨hs1, hs2⟩ := List.mem_filter.1 hs
        rw [h3, h s hs1 s' (List.mem_filter.1 h1).1 hs2 h2.symm]
      · intro k hs
        rcases foldl_encode_some _ _ _ hs with h | h
        · cases h
        · exact h

/-- **C78**, flows: what the object says. It is the last entry of the result, and under the name of a field it has the
value of the last field of that name. -/
theorem C78_last (f : Flow) (key : String) (p : String → Bool) (hk : key ≠ "") (a b : List Simple) (s : Simple)
    (he : all f = a ++ s :: b) (hp : p s.key = true) (hb : ∀ x ∈ b, x.key ≠ s.key) :
    ∃ top m, taDataFields f key p = top ++ [⟨key, .obj m⟩] ∧ m s.key = some s.val := by
  have hin : inner p (all f) = inner p a ++ s :: inner p b := by simp [inner, he, hp]
  have hne : inner p (all f) ≠ [] := by rw [hin]; simp
  have hne' : (!(inner p (all f)).isEmpty) = true := by simpa using hne
  refine ⟨((all f).filter fun s => !p s.key).map (·.field), (inner p (all f)).foldl encode fun _ => none, ?_, ?_⟩
  · unfold taDataFields
    rw [if_neg hk, zapFields_all, split_spec]
    simp [hne']
  · rw [hin, List.foldl_append, List.foldl_cons, foldl_encode]
    · simp [encode]
    · intro x hx
      exact hb x (List.mem_filter.1 hx).1

/-- **C79**, exactly: `Log` meets it iff the level is disabled or one of zap, `SystemLog` iff it is disabled or one from
Debug to Error. -/
theorem C79_exact (threshold level : Int) :
    (OneRecord threshold level (log threshold level) ↔ level < threshold ∨ (-1 ≤ level ∧ level ≤ 5)) ∧
    (OneRecord threshold level (systemLog threshold level) ↔ level < threshold ∨ (-1 ≤ level ∧ level ≤ 2)) := by
  have hdis : ∀ o : Out, level < threshold → o.records = [] → OneRecord threshold level o :=
    fun o h1 h2 => ⟨fun h => absurd h (by omega), fun _ => h2⟩
  have hemp : ∀ o : Out, threshold ≤ level → o.records = [] → ¬ OneRecord threshold level o := by
    intro o h1 h2 h
    obtain ⟨r, hr, _⟩ := h.1 h1
    rw [h2] at hr; cases hr
  constructor
  · constructor
    · intro h
      refine Classical.byContradiction fun hn => ?_
      simp only [not_or, not_and, Int.not_le, Int.not_lt] at hn
      refine hemp _ hn.1 ?_ h
      unfold log
      repeat' split
      all_goals first | rfl | (exfalso; omega)
    · rintro (h | h)
      · exact hdis _ h (by unfold log; rw [if_pos (by omega)]; rfl)
      · exact C79_log_partial threshold level h
  · constructor
    · intro h
      refine Classical.byContradiction fun hn => ?_
      simp only [not_or, not_and, Int.not_le, Int.not_lt] at hn
      refine hemp _ hn.1 ?_ h
      unfold systemLog
      repeat' split
      all_goals first | rfl | (exfalso; omega)
    · rintro (h | h)
      · exact hdis _ h (by unfold systemLog; rw [if_pos (by omega)]; rfl)
      · exact C79_systemLog_partial threshold level h.1 h.2

/-- A flow in which a field of the object repeats an earlier one, a flow that loses a field, and levels on both sides. -/
example : KeepsAll ⟨some [⟨"a", 1⟩], [⟨"b", 2⟩, ⟨"a", 1⟩]⟩ "x" (fun _ => true) ∧
    ¬ KeepsAll ⟨some [⟨"a", 1⟩], [⟨"b", 2⟩, ⟨"a", 3⟩]⟩ "x" (fun _ => true) ∧
    OneRecord 3 4 (log 3 4) ∧ ¬ OneRecord 3 4 (systemLog 3 4) := by
  refine ⟨(C78_exact _ _ _ (by decide)).2 (by decide), fun h => ?_, (C79_exact 3 4).1.2 (by decide), fun h => ?_⟩
  · exact absurd ((C78_exact _ _ _ (by decide)).1 h) (by decide)
  · exact absurd ((C79_exact 3 4).2.1 h) (by decide)

end Braid.LogLib
