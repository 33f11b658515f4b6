import Verif.Custom.Spec

/-
Properties C86 and C87: the check for JSON, for values of any depth, and custom objects.
-/
namespace Braid.Custom

theorem acceptsAll_iff (vs : List GoVal) : acceptsAll vs = true ↔ ∀ v ∈ vs, accepts v = true := by
  induction vs with
  | nil => simp [acceptsAll]
  | cons v vs ih => simp [acceptsAll, ih]

theorem acceptsMap_iff (kvs : List (String × GoVal)) : acceptsMap kvs = true ↔ ∀ x ∈ kvs, accepts x.2 = true := by
  induction kvs with
  | nil => simp [acceptsMap]
  | cons x kvs ih => obtain ⟨k, v⟩ := x; simp [acceptsMap, ih]

theorem encodableAll_iff (vs : List GoVal) : encodableAll vs = true ↔ ∀ v ∈ vs, encodable v = true := by
  induction vs with
  | nil => simp [encodableAll]
  | cons v vs ih => simp [encodableAll, ih]

theorem encodableMap_iff (kvs : List (String × GoVal)) : encodableMap kvs = true ↔ ∀ x ∈ kvs, encodable x.2 = true := by
  induction kvs with
  | nil => simp [encodableMap]
  | cons x kvs ih => obtain ⟨k, v⟩ := x; simp [encodableMap, ih]

/-- **C86**, the part that holds, exactly: an accepted value can be encoded iff no infinite number or NaN, no time out of
range and no failing `MarshalJSON` occurs in it, at any depth. What is missing: values with such a leaf. -/
theorem C86_partial : ∀ v : GoVal, accepts v = true → (encodable v = true ↔ ∀ u, Occurs u v → ¬ Bad u)
  | .null, _ => by
    simp only [encodable, true_iff]
    intro u hu hb; cases hu; simp [Bad] at hb
  | .plain, _ => by
    simp only [encodable, true_iff]
    intro u hu hb; cases hu; simp [Bad] at hb
  | .float fin, _ => by
    constructor
    · intro h u hu hb; cases hu; simp [encodable] at h; simp [Bad, h] at hb
    · intro h; cases fin
      · exact absurd (.inl rfl) (h _ .refl)
      · rfl
  | .time y, _ => by
    constructor
    · intro h u hu hb; cases hu; simp [encodable] at h; simp [Bad, h] at hb
    · intro h; cases y
      · exact absurd (.inr (.inl rfl)) (h _ .refl)
      · rfl
  | .marshaler ok, _ => by
    constructor
    · intro h u hu hb; cases hu; simp [encodable] at h; simp [Bad, h] at hb
    · intro h; cases ok
      · exact absurd (.inr (.inr rfl)) (h _ .refl)
      · rfl
  | .slice vs, ha => by
    simp only [accepts, acceptsAll_iff] at ha
    simp only [encodable, encodableAll_iff]
    constructor
    · intro h u hu hb
      cases hu with
      | refl => simp [Bad] at hb
      | slice hv ho => exact (C86_partial _ (ha _ hv)).1 (h _ hv) u ho hb
    · intro h v hv
      exact (C86_partial v (ha v hv)).2 fun u ho => h u (.slice hv ho)
  | .map kvs, ha => by
    simp only [accepts, acceptsMap_iff] at ha
    simp only [encodable, encodableMap_iff]
    constructor
    · intro h u hu hb
      cases hu with
      | refl => simp [Bad] at hb
      | map hv ho =>
        have := List.sizeOf_lt_of_mem hv
        exact (C86_partial _ (ha _ hv)).1 (h _ hv) u ho hb
    · intro h x hx
      obtain ⟨k, v⟩ := x
      have := List.sizeOf_lt_of_mem hx
      exact (C86_partial v (ha (k, v) hx)).2 fun u ho => h u (.map hx ho)
  | .typed vs, ha => by
    simp only [accepts, acceptsAll_iff] at ha
    simp only [encodable, encodableAll_iff]
    constructor
    · intro h u hu hb
      cases hu with
      | refl => simp [Bad] at hb
      | typed hv ho => exact (C86_partial _ (ha _ hv)).1 (h _ hv) u ho hb
    · intro h v hv
      exact (C86_partial v (ha v hv)).2 fun u ho => h u (.typed hv ho)
  | .other ok, ha => by simp [accepts] at ha
termination_by v => sizeOf v
decreasing_by
  all_goals simp_wf
  all_goals first
    | (have := List.sizeOf_lt_of_mem hv; omega)
    | (simp_all; omega)

/-- **C86** is violated: NaN is accepted. -/
theorem C86_refuted : ¬ Sound := fun h => by
  have := h (.float false) rfl
  cases this

/-- A nested value. -/
example : accepts (.map [("a", .slice [.plain, .typed [.float true]]), ("b", .null)]) = true ∧
    encodable (.map [("a", .slice [.plain, .typed [.float true]]), ("b", .null)]) = true ∧
    accepts (.slice [.plain, .other true]) = false := by
  simp [accepts, acceptsAll, acceptsMap, encodable, encodableAll, encodableMap]

/-- **C87**, the part that holds: an object that is encoded to something comes back, and the rest of the message is
unchanged; if encoding fails an error is recorded. What is missing: objects encoded to nothing, and that a failure leaves
the message unchanged. -/
theorem C87_partial {V : Type} (ser : Serializer V) (hr : RoundTrip ser) (w : Wrapper) (v : V) :
    ((ser.encode v).2 = none → (ser.encode v).1 ≠ [] →
      getReqCustomObject ser (withReqCustomObject ser w v) = some v ∧ (withReqCustomObject ser w v).err = w.err ∧
      (withReqCustomObject ser w v).res = w.res ∧
      getResCustomObject ser (withResCustomObject ser w v) = some v ∧ (withResCustomObject ser w v).err = w.err ∧
      (withResCustomObject ser w v).req = w.req) ∧
    ∀ e, (ser.encode v).2 = some e →
      (withReqCustomObject ser w v).err = some e ∧ (withReqCustomObject ser w v).res = w.res ∧
      (withResCustomObject ser w v).err = some e ∧ (withResCustomObject ser w v).req = w.req := by
  constructor
  · intro h hb
    have hd := hr v (ser.encode v).1 (by rw [← h])
    have hl : (ser.encode v).1.length ≠ 0 := by simpa using hb
    refine ⟨?_, ?_, rfl, ?_, ?_, rfl⟩
    · simp [getReqCustomObject, withReqCustomObject, hb, hd]
    · simp [withReqCustomObject, h]
    · simp [getResCustomObject, withResCustomObject, hb, hd]
    · simp [withResCustomObject, h]
  · intro e h
    exact ⟨by simp [withReqCustomObject, h], rfl, by simp [withResCustomObject, h], rfl⟩

/-- **C87** is violated by every object that cannot be encoded, if the message held something else than what the
serializer returned with its error (`nil` for both serializers of braid): what it held is lost. -/
theorem C87_failure_refuted {V : Type} (ser : Serializer V) (w : Wrapper) (v : V) (e : Nat)
    (hf : ser.encode v = ([], some e)) : (w.req ≠ [] → ¬ ReqObject ser w v) ∧ (w.res ≠ [] → ¬ ResObject ser w v) := by
  constructor
  · intro hw h
    have := h.2 e (by rw [hf])
    simp only [withReqCustomObject, hf, Wrapper.mk.injEq] at this
    exact hw this.1.symm
  · intro hw h
    have := h.2 e (by rw [hf])
    simp only [withResCustomObject, hf, Wrapper.mk.injEq] at this
    exact hw this.2.1.symm

/-- **C87** is violated by every object encoded to nothing: it does not come back. -/
theorem C87_empty_refuted {V : Type} (ser : Serializer V) (w : Wrapper) (v : V) (hf : ser.encode v = ([], none)) :
    ¬ ReqObject ser w v ∧ ¬ ResObject ser w v := by
  constructor
  · intro h
    have := (h.1 (by rw [hf])).1
    simp [getReqCustomObject, withReqCustomObject, hf] at this
  · intro h
    have := (h.1 (by rw [hf])).1
    simp [getResCustomObject, withResCustomObject, hf] at this

/-- Bytes that stand for themselves, except for one that cannot be encoded. -/
example : ∃ ser : Serializer (List UInt8), RoundTrip ser ∧ getReqCustomObject ser (withReqCustomObject ser ⟨[9], [], none⟩ [1, 2]) =
    some [1, 2] ∧ withReqCustomObject ser ⟨[9], [], none⟩ [0] = ⟨[], [], some 7⟩ := by
  refine ⟨⟨fun v => if v = [0] then ([], some 7) else (v, none), some⟩, ?_, rfl, rfl⟩
  intro v b h
  simp only [] at h
  split at h
  · cases h
  · cases h; rfl

/-- **C86**, what is accepted, exactly: the values in which no value of another type occurs, at any depth. -/
theorem C86_accepted : ∀ v : GoVal, accepts v = true ↔ ∀ ok, ¬ Occurs (.other ok) v
  | .null => by simp only [accepts, true_iff]; intro ok h; cases h
  | .plain => by simp only [accepts, true_iff]; intro ok h; cases h
  | .float _ => by simp only [accepts, true_iff]; intro ok h; cases h
  | .time _ => by simp only [accepts, true_iff]; intro ok h; cases h
  | .marshaler _ => by simp only [accepts, true_iff]; intro ok h; cases h
  | .other ok => by
    simp only [accepts, Bool.false_eq_true, false_iff]
    exact fun h => h ok .refl
  | .slice vs => by
    simp only [accepts, acceptsAll_iff]
    constructor
    · intro h ok ho
      cases ho with
      | slice hv ho => exact (C86_accepted _).1 (h _ hv) ok ho
    · exact fun h v hv => (C86_accepted v).2 fun ok ho => h ok (.slice hv ho)
  | .map kvs => by
    simp only [accepts, acceptsMap_iff]
    constructor
    · intro h ok ho
      cases ho with
      | map hv ho =>
        have := List.sizeOf_lt_of_mem hv
        exact (C86_accepted _).1 (h _ hv) ok ho
    · intro h x hx
      obtain ⟨k, v⟩ := x
      have := List.sizeOf_lt_of_mem hx
      exact (C86_accepted v).2 fun ok ho => h ok (.map hx ho)
  | .typed vs => by
    simp only [accepts, acceptsAll_iff]
    constructor
    · intro h ok ho
      cases ho with
      | typed hv ho => exact (C86_accepted _).1 (h _ hv) ok ho
    · exact fun h v hv => (C86_accepted v).2 fun ok ho => h ok (.typed hv ho)
termination_by v => sizeOf v
decreasing_by
  all_goals simp_wf
  all_goals first
    | (have := List.sizeOf_lt_of_mem hv; omega)
    | (simp_all; omega)

/-- A time out of range in a map is accepted, a struct in a slice is not. -/
example : accepts (.map [("a", .slice [.time false])]) = true ∧ accepts (.slice [.plain, .other true]) = false := by
  refine ⟨(C86_accepted _).2 ?_, ?_⟩
  · rintro ok (_ | _ | ⟨hv, ho⟩)
    simp at hv
    obtain ⟨-, rfl⟩ := hv
    rcases ho with _ | ⟨hv, ho⟩
    simp at hv
    subst hv
    cases ho
  · cases h : accepts (.slice [.plain, .other true])
    · rfl
    · exact absurd (.slice (by simp) .refl) ((C86_accepted _).1 h true)

end Braid.Custom
