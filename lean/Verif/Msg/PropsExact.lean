import Verif.Msg.Props

/-
Properties C48, C49 and C50: exactly which calls panic, which integers come back and which headers are copied.
-/
namespace Braid.Msg
open Spec
variable {B V E X : Type}

theorem assignAll_some_ne (f : String → Option V) (attrs : List (Attr V)) : ∃ g, assignAll (some f) attrs = some (some g) := by
  induction attrs generalizing f with
  | nil => exact ⟨f, rfl⟩
  | cons a attrs ih => exact ih _

theorem fields_panic_iff (ser : Serializer B V E) (m : Message B) (attrs : List (Attr V)) :
    fields ser m attrs = .panic ↔ m.header = none ∨
      ∃ h, m.header = some h ∧ ser.isEmpty h.custom = false ∧ ser.decode h.custom = .ok none ∧ attrs ≠ [] := by
  cases hh : m.header with
  | none => simp [fields, hh]
  | some h =>
    have hmap : ∀ d, fieldsMap ser m d ≠ .panic := by
      intro d
      unfold fieldsMap
      cases ser.encode d <;> simp [hh]
    have hsome : ∀ f : String → Option V, (match assignAll (some f) attrs with
        | none => Out.panic
        | some data => fieldsMap ser m data) ≠ .panic := by
      intro f
      obtain ⟨g, hg⟩ := assignAll_some_ne f attrs
      rw [hg]; exact hmap _
    simp only [fields, hh]
    cases he : ser.isEmpty h.custom with
    | true =>
      simp only [if_true]
      constructor
      · intro h'; exact absurd h' (hsome _)
      · rintro (h' | ⟨h', h1, h2, -⟩)
        · cases h'
        · cases h1; rw [he] at h2; cases h2
    | false =>
      simp only [Bool.false_eq_true, if_false]
      cases hd : ser.decode h.custom with
      | error e =>
        simp only [reduceCtorEq, false_iff, not_or, not_false_eq_true, true_and]
        rintro ⟨h', h1, -, h2, -⟩
        cases h1; rw [hd] at h2; cases h2
      | ok d =>
        cases d with
        | some f =>
          simp only []
          constructor
          · intro h'; exact absurd h' (hsome f)
          · rintro (h' | ⟨h', h1, -, h2, -⟩)
            · cases h'
            · cases h1; rw [hd] at h2; cases h2
        | none =>
          cases attrs with
          | nil =>
            simp only [assignAll]
            constructor
            · intro h'; exact absurd h' (hmap _)
            · rintro (h' | ⟨h', -, -, -, h2⟩)
              · cases h'
              · exact absurd rfl h2
          | cons a attrs =>
            simp only [assignAll, true_iff]
            exact .inr ⟨h, rfl, he, hd, by simp⟩

/-- C48, exactly when setting custom fields panics: without a header, or if there is something to set and the existing contents
decode to a nil map. -/
theorem C48_panic_exact (ser : Serializer B V E) (w : Wrapper B E) (attrs : List (Attr V)) :
    (withReqCustomFields ser w attrs = .panic ↔ w.req.header = none ∨
      ∃ h, w.req.header = some h ∧ ser.isEmpty h.custom = false ∧ ser.decode h.custom = .ok none ∧ attrs ≠ []) ∧
    (withResCustomFields ser w attrs = .panic ↔ w.res.header = none ∨
      ∃ h, w.res.header = some h ∧ ser.isEmpty h.custom = false ∧ ser.decode h.custom = .ok none ∧ attrs ≠ []) := by
  rw [← fields_panic_iff ser w.req attrs, ← fields_panic_iff ser w.res attrs]
  constructor
  · unfold withReqCustomFields
    cases fields ser w.req attrs <;> simp
  · unfold withResCustomFields
    cases fields ser w.res attrs <;> simp

/-- C49, exactly: an integer whose nearest float64 is a value of the type comes back iff it is 0, or it has at most 53 significant
bits and its type is neither int8 nor uint8. -/
theorem C49_exact {ser : Serializer B (Val X) E} (hl : Lawful ser jsonNorm) (henc : ∀ m, ∃ b, ser.encode m = .ok b)
    (ovf : IntTy → Int → Int) (w : Wrapper B E) (key : String) (t : IntTy) (n : Int) (hr : InRange t (roundF64 n)) :
    (∀ h m0, w.req.header = some h → Custom ser w.req = some m0 →
      (ser.isEmpty h.custom = false → ser.decode h.custom ≠ .ok none) →
      (setGetReq ser ovf w key t n = .ret n ↔ n = 0 ∨ (Handled t ∧ Representable n))) ∧
    (∀ h m0, w.res.header = some h → Custom ser w.res = some m0 →
      (ser.isEmpty h.custom = false → ser.decode h.custom ≠ .ok none) →
      (setGetRes ser ovf w key t n = .ret n ↔ n = 0 ∨ (Handled t ∧ Representable n))) := by
  have key' : switchF64 ovf t (roundF64 n) = n ↔ n = 0 ∨ (Handled t ∧ Representable n) := by
    by_cases ht : Handled t
    · have h0 : n = 0 → Representable n := fun e => C49_small_representable n (by rw [e]; decide)
      rw [switchF64_handled ht, convert, if_pos ((inRange_iff t _).1 hr), roundF64_eq_iff]
      exact ⟨fun h => .inr ⟨ht, h⟩, fun h => h.elim h0 And.right⟩
    · have : switchF64 ovf t (roundF64 n) = 0 := by
        cases t <;> first | rfl | exact absurd ⟨by decide, by decide⟩ ht
      rw [this]
      exact ⟨fun h => .inl h.symm, fun h => h.elim Eq.symm fun h => absurd h.1 ht⟩
  constructor
  · intro h m0 hh hc hn
    rw [setGetReq_eq hl henc ovf w hh hc hn, Out.ret.injEq, key']
  · intro h m0 hh hc hn
    rw [setGetRes_eq hl henc ovf w hh hc hn, Out.ret.injEq, key']

/-- C50, exactly: the request gets the header `h` iff it had none, or one with the timestamp of `h`. -/
theorem C50_exact (w : Wrapper B E) (h : Header B) :
    (withReqHeader w (some h)).req.header = some h ↔ ∀ old, w.req.header = some old → old.timestamp = h.timestamp := by
  rw [(C50_header_copied_partial w h).1]
  cases hw : w.req.header with
  | none => simp
  | some old =>
    constructor
    · intro e o ho
      cases ho
      have := congrArg (Option.map Header.timestamp) e
      simpa using this
    · intro e
      simp only [e old rfl]

/-- A message whose contents are a nil map: setting nothing is fine, setting something panics. -/
example : withReqCustomFields (toySer Nat id) ⟨⟨some (hdrWith (some (.ok none))), none⟩, ⟨none, none⟩, none⟩ [⟨"a", 1⟩] = .panic ∧
    withReqCustomFields (toySer Nat id) ⟨⟨some (hdrWith (some (.ok none))), none⟩, ⟨none, none⟩, none⟩ [] ≠ .panic := by
  refine ⟨rfl, fun h => ?_⟩
  rcases (C48_panic_exact _ _ _).1.1 h with h | ⟨_, -, -, -, h⟩
  · cases h
  · exact h rfl

/-- A case: only headers of the same timestamp are replaced by all of the new one. -/
example : (withReqHeader (⟨⟨some { hdrWith 0 with timestamp := 5 }, 0⟩, ⟨none, 0⟩, none⟩ : Wrapper Nat Unit)
      (some { hdrWith 7 with timestamp := 6 })).req.header ≠ some { hdrWith 7 with timestamp := 6 } :=
  fun h => absurd ((C50_exact _ _).1 h _ rfl) (by decide)

/-- An int8 of 5 does not come back. -/
example (ovf : IntTy → Int → Int) : setGetReq (toySer (Val Unit) jsonNorm) ovf toyW "k" .int8 5 ≠ .ret 5 := by
  have hf : roundF64 5 = 5 := by decide +kernel
  intro h
  rcases ((C49_exact (toySer_lawful jsonNorm_idem) (fun _ => ⟨_, rfl⟩) ovf toyW "k" .int8 5
    (by rw [hf]; simp [InRange, signed, bits])).1 _ _ rfl rfl (by intro h; cases h)).1 h with h | ⟨h, -⟩
  · cases h
  · exact h.1 rfl

end Braid.Msg
