import Verif.Custom.Props

/-
Property C87: exactly which custom objects come back.
-/
namespace Braid.Custom

/-- **C87**, exactly: with a serializer that gives back what it encoded, setting an object does what it should iff the object
is encoded to something, or cannot be encoded and the message held just what the serializer returned with its error. -/
theorem C87_exact {V : Type} (ser : Serializer V) (hr : RoundTrip ser) (w : Wrapper) (v : V) :
    (ReqObject ser w v ↔ ((ser.encode v).2 = none ∧ (ser.encode v).1 ≠ []) ∨
      ((ser.encode v).2 ≠ none ∧ (ser.encode v).1 = w.req)) ∧
    (ResObject ser w v ↔ ((ser.encode v).2 = none ∧ (ser.encode v).1 ≠ []) ∨
      ((ser.encode v).2 ≠ none ∧ (ser.encode v).1 = w.res)) := by
  rcases he : ser.encode v with ⟨b, _ | e⟩
  · have hd := hr v b he
    cases b with
    | nil =>
      obtain ⟨h1, h2⟩ := C87_empty_refuted ser w v he
      simp [h1, h2]
    | cons x b =>
      simp [ReqObject, ResObject, getReqCustomObject, getResCustomObject, withReqCustomObject, withResCustomObject, he, hd]
  · cases w
    simp [ReqObject, ResObject, withReqCustomObject, withResCustomObject, he]

/-- An object that comes back, and one whose failure leaves an empty message as it was. -/
example : ∃ ser : Serializer (List UInt8), RoundTrip ser ∧ ReqObject ser ⟨[9], [], none⟩ [1] ∧
    ¬ ReqObject ser ⟨[9], [], none⟩ [0] ∧ ReqObject ser ⟨[], [], none⟩ [0] := by
  have hr : RoundTrip (V := List UInt8) ⟨fun v => if v = [0] then ([], some 7) else (v, none), some⟩ := by
    intro v b h
    simp only at h
    split at h
    · simp at h
    · simp only [Prod.mk.injEq, and_true] at h
      simp [h]
  refine ⟨_, hr, (C87_exact _ hr _ _).1.2 (by decide), fun h => ?_, (C87_exact _ hr _ _).1.2 (by decide)⟩
  exact absurd ((C87_exact _ hr _ _).1.1 h) (by decide)

end Braid.Custom
