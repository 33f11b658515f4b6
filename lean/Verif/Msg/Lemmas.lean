import Verif.Msg.Spec

/-
Helper lemmas for the message properties: assigning attributes, and rounding to float64.
-/
namespace Braid.Msg
open Spec
variable {B V E : Type}

theorem lastValue_cons (a : Attr V) (as : List (Attr V)) (k : String) :
    lastValue (a :: as) k =
      (lastValue as k).or (if a.key = k then some a.value else none) := by
  unfold lastValue
  rw [List.reverse_cons, List.find?_append]
  cases h : as.reverse.find? (fun a => decide (a.key = k)) with
  | some x => simp
  | none => by_cases hk : a.key = k <;> simp [hk]

theorem assignAll_some (as : List (Attr V)) (f : String → Option V) :
    assignAll (some f) as = some (some fun k => (lastValue as k).or (f k)) := by
  induction as generalizing f with
  | nil => simp [assignAll, lastValue]
  | cons a as ih =>
    rw [assignAll, ih]
    congr 2
    funext k
    rw [lastValue_cons]
    cases lastValue as k with
    | some v => simp
    | none =>
      by_cases hk : k = a.key
      · simp [hk]
      · have hk' : ¬ a.key = k := fun h => hk h.symm
        simp [hk, hk']

/-- What `fields` does to a message whose custom data decodes to a map that is not nil. -/
theorem fields_spec {ser : Serializer B V E} {norm : V → V} (hl : Lawful ser norm) {m : Message B}
    {h : Header B} (hh : m.header = some h) {m0 : String → Option V} (hc : Custom ser m = some m0)
    (hn : ser.isEmpty h.custom = false → ser.decode h.custom ≠ .ok none) (attrs : List (Attr V)) :
    (∃ m', fields ser m attrs = .ret (m', none) ∧ SameButCustom m m' ∧
      Custom ser m' = some fun k => match lastValue attrs k with
        | some v => some (norm v)
        | none => m0 k) ∨
    (∃ e, fields ser m attrs = .ret (m, some e) ∧
      ser.encode (some fun k => (lastValue attrs k).or (m0 k)) = .error e) := by
  obtain ⟨hdr, body⟩ := m
  simp only at hh; subst hh
  have hdata : ∃ f, (if ser.isEmpty h.custom then .ok (some fun _ => none)
      else ser.decode h.custom) = (.ok (some f) : Except E (GoMap V)) ∧ m0 = f ∧
      ∀ k v, f k = some v → norm v = v := by
    by_cases he : ser.isEmpty h.custom = true
    · refine ⟨fun _ => none, by rw [if_pos he], ?_, by simp⟩
      simp only [Custom, if_pos he] at hc
      exact (Option.some.inj hc).symm
    · have he' : ser.isEmpty h.custom = false := by simpa using he
      simp only [Custom, if_neg he] at hc
      rw [if_neg he]
      cases hd : ser.decode h.custom with
      | error e => rw [hd] at hc; simp at hc
      | ok d =>
        cases d with
        | none => exact absurd hd (hn he')
        | some f =>
          rw [hd] at hc
          exact ⟨f, rfl, (Option.some.inj hc).symm, fun k v hv => hl.normal _ _ _ _ hd hv⟩
  obtain ⟨f, hd, rfl, hnf⟩ := hdata
  have hf : fields ser ⟨some h, body⟩ attrs =
      fieldsMap ser ⟨some h, body⟩ (some fun k => (lastValue attrs k).or (m0 k)) := by
    simp only [fields, hd, assignAll_some]
  rw [hf]
  cases he : ser.encode (some fun k => (lastValue attrs k).or (m0 k)) with
  | error e => exact .inr ⟨e, by simp only [fieldsMap, he], rfl⟩
  | ok b =>
    refine .inl ⟨⟨some { h with custom := b }, body⟩, by simp only [fieldsMap, he], ⟨rfl, rfl⟩, ?_⟩
    simp only [Custom, hl.nonempty _ _ he, hl.roundtrip _ _ he, Bool.false_eq_true, if_false]
    congr 1
    funext k
    simp only [GoMap.get]
    cases lastValue attrs k with
    | some v => rfl
    | none =>
      cases hv : m0 k with
      | none => rfl
      | some v => simp [hnf k v hv]

/-- Undecodable data: the error is reported, the message is as before. -/
theorem fields_undecodable {ser : Serializer B V E} {m : Message B} {h : Header B} {e : E}
    (hh : m.header = some h) (he : ser.isEmpty h.custom = false)
    (hd : ser.decode h.custom = .error e) (attrs : List (Attr V)) :
    fields ser m attrs = .ret (m, some e) := by
  simp [fields, hh, he, hd]

theorem getIntField_of_custom {X : Type} {ser : Serializer B (Val X) E} {ovf : IntTy → Int → Int}
    {m : Message B} {f : String → Option (Val X)} (hc : Custom ser m = some f) {key : String}
    {t : IntTy} {x : Int} (hk : f key = some (.f64 x)) :
    getIntField ser ovf m key t = .ret (switchF64 ovf t x) := by
  obtain ⟨hdr, body⟩ := m
  cases hdr with
  | none => simp [Custom] at hc
  | some h =>
    simp only [Custom] at hc
    simp only [getIntField, customMap]
    by_cases he : ser.isEmpty h.custom = true
    · rw [if_pos he] at hc; rw [← Option.some.inj hc] at hk; simp at hk
    · rw [if_neg he] at hc ⊢
      cases hd : ser.decode h.custom with
      | error e => rw [hd] at hc; simp at hc
      | ok d =>
        rw [hd] at hc
        rw [← Option.some.inj hc] at hk
        simp only [hk]

theorem roundNat_small {a : Nat} (h : a < 2 ^ 53) : roundNat a = a := by
  unfold roundNat; rw [if_pos h]

theorem roundNat_big_iff {a : Nat} (h : ¬ a < 2 ^ 53) :
    roundNat a = a ↔ 2 ^ (a.log2 - 52) ∣ a := by
  have hu : 0 < 2 ^ (a.log2 - 52) := Nat.two_pow_pos _
  unfold roundNat
  rw [if_neg h]
  generalize 2 ^ (a.log2 - 52) = u at hu
  have hd := Nat.div_add_mod a u
  have hm := Nat.mod_lt a hu
  simp only []
  rw [Nat.dvd_iff_mod_eq_zero]
  have hc : a / u * u = u * (a / u) := Nat.mul_comm _ _
  have hs : (a / u + 1) * u = u * (a / u) + u := by rw [Nat.add_mul, Nat.one_mul, hc]
  split
  · rw [hc]; omega
  · rw [hs]; omega

theorem representable_big_iff {a : Nat} (h : ¬ a < 2 ^ 53) :
    (∃ m e : Nat, a = m * 2 ^ e ∧ m < 2 ^ 53) ↔ 2 ^ (a.log2 - 52) ∣ a := by
  have ha : a ≠ 0 := by rintro rfl; exact h (by decide)
  have hlog : 53 ≤ a.log2 := (Nat.le_log2 ha).2 (Nat.le_of_not_lt h)
  constructor
  · rintro ⟨m, e, rfl, hm⟩
    have hm0 : m ≠ 0 := by rintro rfl; simp at ha
    have hlt : m * 2 ^ e < 2 ^ (53 + e) := by
      rw [Nat.pow_add]; exact Nat.mul_lt_mul_of_pos_right hm (Nat.two_pow_pos e)
    have : (m * 2 ^ e).log2 < 53 + e := (Nat.log2_lt ha).2 hlt
    exact Nat.dvd_trans (Nat.pow_dvd_pow 2 (by omega)) (Nat.dvd_mul_left _ _)
  · intro hd
    obtain ⟨m, hm⟩ := hd
    refine ⟨m, a.log2 - 52, by rw [Nat.mul_comm]; exact hm, ?_⟩
    have hlt : a < 2 ^ (a.log2 + 1) := Nat.lt_log2_self
    have he : 2 ^ (a.log2 + 1) = 2 ^ (a.log2 - 52) * 2 ^ 53 := by
      rw [← Nat.pow_add]; congr 1; omega
    rw [he] at hlt
    rw [hm] at hlt
    have : (2 ^ (a.log2 - 52)) * m < 2 ^ (a.log2 - 52) * 2 ^ 53 := by
      rw [← hm] at hlt ⊢; exact hlt
    exact Nat.lt_of_mul_lt_mul_left this

theorem roundNat_eq_iff (a : Nat) : roundNat a = a ↔ ∃ m e : Nat, a = m * 2 ^ e ∧ m < 2 ^ 53 := by
  by_cases h : a < 2 ^ 53
  · exact ⟨fun _ => ⟨a, 0, by simp, h⟩, fun _ => roundNat_small h⟩
  · rw [roundNat_big_iff h, representable_big_iff h]

theorem roundF64_eq_iff (n : Int) : roundF64 n = n ↔ Representable n := by
  unfold roundF64 Representable
  by_cases h : 0 ≤ n
  · rw [if_pos h]
    have e : n.natAbs = n.toNat := by omega
    rw [e, ← roundNat_eq_iff]
    omega
  · rw [if_neg h]
    have e : n.natAbs = (-n).toNat := by omega
    rw [e, ← roundNat_eq_iff]
    omega

theorem switchF64_handled {ovf : IntTy → Int → Int} {t : IntTy} {f : Int} (h : Handled t) :
    switchF64 ovf t f = convert ovf t f := by
  cases t <;> first | rfl | exact absurd rfl h.1 | exact absurd rfl h.2

end Braid.Msg
