import Verif.Msg.Lemmas

/-
Properties C48 (custom fields merge), C49 (custom integers) and C50 (WithReqHeader).
-/
namespace Braid.Msg
open Spec
variable {B V E X : Type}

/-! ### C48 -/

/-- C48: `WithReqCustomFields` sets the given keys to their last values, keeps all the other keys, and
touches nothing else; if the merged map cannot be encoded, it only records the error. This is the part
that holds: the existing data must not decode to a nil map (see `C48_custom_merge_refuted`). -/
theorem C48_req_merge_partial {ser : Serializer B V E} {norm : V → V} (hl : Lawful ser norm)
    (w : Wrapper B E) {h : Header B} (hh : w.req.header = some h) {m0 : String → Option V}
    (hc : Custom ser w.req = some m0)
    (hn : ser.isEmpty h.custom = false → ser.decode h.custom ≠ .ok none) (attrs : List (Attr V)) :
    (∃ w', withReqCustomFields ser w attrs = .ret w' ∧ w'.res = w.res ∧ w'.err = w.err ∧
      SameButCustom w.req w'.req ∧
      Custom ser w'.req = some fun k => match lastValue attrs k with
        | some v => some (norm v)
        | none => m0 k) ∨
    (∃ e, withReqCustomFields ser w attrs = .ret { w with err := some e } ∧
      ser.encode (some fun k => (lastValue attrs k).or (m0 k)) = .error e) := by
  rcases fields_spec hl hh hc hn attrs with ⟨m', hf, hs, hc'⟩ | ⟨e, hf, he⟩
  · exact .inl ⟨{ w with req := m' }, by simp [withReqCustomFields, hf, setErr], rfl, rfl, hs, hc'⟩
  · exact .inr ⟨e, by simp [withReqCustomFields, hf, setErr], he⟩

/-- C48, for the response. -/
theorem C48_res_merge_partial {ser : Serializer B V E} {norm : V → V} (hl : Lawful ser norm)
    (w : Wrapper B E) {h : Header B} (hh : w.res.header = some h) {m0 : String → Option V}
    (hc : Custom ser w.res = some m0)
    (hn : ser.isEmpty h.custom = false → ser.decode h.custom ≠ .ok none) (attrs : List (Attr V)) :
    (∃ w', withResCustomFields ser w attrs = .ret w' ∧ w'.req = w.req ∧ w'.err = w.err ∧
      SameButCustom w.res w'.res ∧
      Custom ser w'.res = some fun k => match lastValue attrs k with
        | some v => some (norm v)
        | none => m0 k) ∨
    (∃ e, withResCustomFields ser w attrs = .ret { w with err := some e } ∧
      ser.encode (some fun k => (lastValue attrs k).or (m0 k)) = .error e) := by
  rcases fields_spec hl hh hc hn attrs with ⟨m', hf, hs, hc'⟩ | ⟨e, hf, he⟩
  · exact .inl ⟨{ w with res := m' }, by simp [withResCustomFields, hf, setErr], rfl, rfl, hs, hc'⟩
  · exact .inr ⟨e, by simp [withResCustomFields, hf, setErr], he⟩

/-- C48, second clause: data that cannot be decoded stays as it is, and the error is recorded. -/
theorem C48_undecodable {ser : Serializer B V E} (w : Wrapper B E) (attrs : List (Attr V)) :
    (∀ h e, w.req.header = some h → ser.isEmpty h.custom = false → ser.decode h.custom = .error e →
      withReqCustomFields ser w attrs = .ret { w with err := some e }) ∧
    (∀ h e, w.res.header = some h → ser.isEmpty h.custom = false → ser.decode h.custom = .error e →
      withResCustomFields ser w attrs = .ret { w with err := some e }) :=
  ⟨fun _ _ hh he hd => by simp [withReqCustomFields, fields_undecodable hh he hd, setErr],
   fun _ _ hh he hd => by simp [withResCustomFields, fields_undecodable hh he hd, setErr]⟩

/-- C48, the whole map: `WithReqCustomFieldsMap` and `WithResCustomFieldsMap` replace the custom fields by the map they are given and
touch nothing else, whatever was there; if the map cannot be encoded they only record the error. -/
theorem C48_map {ser : Serializer B V E} {norm : V → V} (hl : Lawful ser norm) (w : Wrapper B E) {h : Header B} (f : String → Option V) :
    (w.req.header = some h → (∃ w', withReqCustomFieldsMap ser w (some f) = .ret w' ∧ w'.res = w.res ∧ w'.err = w.err ∧
        SameButCustom w.req w'.req ∧ Custom ser w'.req = some fun k => (f k).map norm) ∨
      ∃ e, withReqCustomFieldsMap ser w (some f) = .ret { w with err := some e } ∧ ser.encode (some f) = .error e) ∧
    (w.res.header = some h → (∃ w', withResCustomFieldsMap ser w (some f) = .ret w' ∧ w'.req = w.req ∧ w'.err = w.err ∧
        SameButCustom w.res w'.res ∧ Custom ser w'.res = some fun k => (f k).map norm) ∨
      ∃ e, withResCustomFieldsMap ser w (some f) = .ret { w with err := some e } ∧ ser.encode (some f) = .error e) := by
  refine ⟨fun hh => ?_, fun hh => ?_⟩
  · cases he : ser.encode (some f) with
    | error e => exact .inr ⟨e, by simp [withReqCustomFieldsMap, fieldsMap, he, setErr], rfl⟩
    | ok b =>
      refine .inl ⟨{ w with req := { w.req with header := some { h with custom := b } } },
        by simp only [withReqCustomFieldsMap, fieldsMap, he, hh, setErr], rfl, rfl, by simp [SameButCustom, hh], ?_⟩
      simp [Custom, hl.nonempty _ _ he, hl.roundtrip _ _ he]
      rfl
  · cases he : ser.encode (some f) with
    | error e => exact .inr ⟨e, by simp [withResCustomFieldsMap, fieldsMap, he, setErr], rfl⟩
    | ok b =>
      refine .inl ⟨{ w with res := { w.res with header := some { h with custom := b } } },
        by simp only [withResCustomFieldsMap, fieldsMap, he, hh, setErr], rfl, rfl, by simp [SameButCustom, hh], ?_⟩
      simp [Custom, hl.nonempty _ _ he, hl.roundtrip _ _ he]
      rfl

/-- A serializer to test the theorems with: byte strings are maps, `none` the empty string, and
`some (.error ())` is garbage. -/
def toySer (V : Type) (norm : V → V) : Serializer (Option (Except Unit (GoMap V))) V Unit where
  isEmpty b := b.isNone
  encode m := .ok (some (.ok (m.map fun f k => (f k).map norm)))
  decode b := match b with
    | some (.ok m) => .ok (m.map fun f k => (f k).map norm)
    | _ => .error ()

theorem toySer_lawful {norm : V → V} (hi : ∀ v, norm (norm v) = norm v) :
    Lawful (toySer V norm) norm where
  roundtrip f b h := by
    simp only [toySer, Except.ok.injEq] at h
    subst h
    simp only [toySer, Option.map_some]
    congr 2; funext k
    cases f k <;> simp [hi]
  roundtrip_nil b h := by
    simp only [toySer, Except.ok.injEq] at h
    subst h; rfl
  nonempty m b h := by
    simp only [toySer, Except.ok.injEq] at h
    subst h; rfl
  normal b m k v h hv := by
    match b, h with
    | some (.ok none), h => simp only [toySer, Except.ok.injEq] at h; subst h; simp [GoMap.get] at hv
    | some (.ok (some f)), h =>
      simp only [toySer, Except.ok.injEq] at h; subst h
      simp only [GoMap.get, Option.map_some] at hv
      obtain ⟨x, _, rfl⟩ := Option.map_eq_some_iff.1 hv
      exact hi x
    | some (.error _), h => simp [toySer] at h
    | none, h => simp [toySer] at h

/-- A header with the given custom data. -/
def hdrWith (b : B) : Header B := ⟨"", "", "", "", "", "", "", "", 0, b⟩

/-- The hypotheses of C48 hold for a message with one field: the key `a` is replaced, `b` kept. -/
example : let ser := toySer Nat id
    let w : Wrapper _ Unit := ⟨⟨some (hdrWith (some (.ok (some fun k =>
      if k = "a" then some 1 else if k = "b" then some 2 else none)))), none⟩, ⟨none, none⟩, none⟩
    ∃ w' f, withReqCustomFields ser w [⟨"a", 5⟩, ⟨"c", 6⟩, ⟨"a", 7⟩] = .ret w' ∧
      Custom ser w'.req = some f ∧ f "a" = some 7 ∧ f "b" = some 2 ∧ f "c" = some 6 := by
  refine ⟨_, _, rfl, rfl, ?_⟩
  decide

/-- The map replaces all fields of the response. -/
example : let ser := toySer Nat id
    let w : Wrapper _ Unit := ⟨⟨none, none⟩, ⟨some (hdrWith (some (.ok (some fun k => if k = "a" then some 1 else none)))), none⟩, none⟩
    ∃ w' f, withResCustomFieldsMap ser w (some fun k => if k = "b" then some 2 else none) = .ret w' ∧
      Custom ser w'.res = some f ∧ f "a" = none ∧ f "b" = some 2 := by
  refine ⟨_, _, rfl, rfl, ?_⟩
  decide

/-- C48 fails on existing contents that decode to a nil map (JSON `null`): the assignment panics. Such
contents are what `WithReqCustomFieldsMap(nil)` writes. -/
theorem C48_custom_merge_refuted {ser : Serializer B V E} {norm : V → V} (hl : Lawful ser norm)
    {b : B} (hb : ser.encode none = .ok b) (w : Wrapper B E) {h : Header B}
    (hh : w.req.header = some h) (a : Attr V) (attrs : List (Attr V)) :
    ∃ w', withReqCustomFieldsMap ser w none = .ret w' ∧
      withReqCustomFields ser w' (a :: attrs) = .panic := by
  refine ⟨{ w with req := { w.req with header := some { h with custom := b } } }, ?_, ?_⟩
  · simp [withReqCustomFieldsMap, fieldsMap, hb, hh, setErr]
  · simp [withReqCustomFields, fields, hl.nonempty _ _ hb, hl.roundtrip_nil _ hb, assignAll]

example : ∃ w', withReqCustomFieldsMap (toySer Nat id)
      ⟨⟨some (hdrWith none), none⟩, ⟨none, none⟩, none⟩ none = .ret w' ∧
    withReqCustomFields (toySer Nat id) w' [⟨"a", 1⟩] = .panic :=
  C48_custom_merge_refuted (toySer_lawful (fun _ => rfl)) rfl _ rfl _ _

/-! ### C49 -/

/-- Setting one integer field of the request and reading it back. -/
def setGetReq (ser : Serializer B (Val X) E) (ovf : IntTy → Int → Int) (w : Wrapper B E)
    (key : String) (t : IntTy) (n : Int) : Out Int :=
  match withReqCustomFields ser w [⟨key, .goInt t n⟩] with
  | .panic => .panic
  | .ret w' => getReqIntField ser ovf w' key t

/-- The same, with the response. -/
def setGetRes (ser : Serializer B (Val X) E) (ovf : IntTy → Int → Int) (w : Wrapper B E)
    (key : String) (t : IntTy) (n : Int) : Out Int :=
  match withResCustomFields ser w [⟨key, .goInt t n⟩] with
  | .panic => .panic
  | .ret w' => getResIntField ser ovf w' key t

/-- What is read back (`X` are the other values that JSON can encode, so that encoding does not fail),
for every type and value: the switch applied to the nearest float64. -/
theorem setGetReq_eq {ser : Serializer B (Val X) E} (hl : Lawful ser jsonNorm)
    (henc : ∀ m, ∃ b, ser.encode m = .ok b) (ovf : IntTy → Int → Int) (w : Wrapper B E)
    {h : Header B} (hh : w.req.header = some h) {m0 : String → Option (Val X)}
    (hc : Custom ser w.req = some m0)
    (hn : ser.isEmpty h.custom = false → ser.decode h.custom ≠ .ok none)
    (key : String) (t : IntTy) (n : Int) :
    setGetReq ser ovf w key t n = .ret (switchF64 ovf t (roundF64 n)) := by
  rcases C48_req_merge_partial hl w hh hc hn [⟨key, .goInt t n⟩] with
    ⟨w', hw, -, -, -, hc'⟩ | ⟨e, -, he⟩
  · simp only [setGetReq, hw, getReqIntField]
    exact getIntField_of_custom hc' (by simp [lastValue, jsonNorm])
  · obtain ⟨b, hb⟩ := henc (some fun k => (lastValue [⟨key, .goInt t n⟩] k).or (m0 k))
    rw [he] at hb; cases hb

theorem setGetRes_eq {ser : Serializer B (Val X) E} (hl : Lawful ser jsonNorm)
    (henc : ∀ m, ∃ b, ser.encode m = .ok b) (ovf : IntTy → Int → Int) (w : Wrapper B E)
    {h : Header B} (hh : w.res.header = some h) {m0 : String → Option (Val X)}
    (hc : Custom ser w.res = some m0)
    (hn : ser.isEmpty h.custom = false → ser.decode h.custom ≠ .ok none)
    (key : String) (t : IntTy) (n : Int) :
    setGetRes ser ovf w key t n = .ret (switchF64 ovf t (roundF64 n)) := by
  rcases C48_res_merge_partial hl w hh hc hn [⟨key, .goInt t n⟩] with
    ⟨w', hw, -, -, -, hc'⟩ | ⟨e, -, he⟩
  · simp only [setGetRes, hw, getResIntField]
    exact getIntField_of_custom hc' (by simp [lastValue, jsonNorm])
  · obtain ⟨b, hb⟩ := henc (some fun k => (lastValue [⟨key, .goInt t n⟩] k).or (m0 k))
    rw [he] at hb; cases hb

theorem inRange_iff (t : IntTy) (n : Int) : InRange t n ↔ t.range.1 ≤ n ∧ n < t.range.2 := by
  cases t <;> simp [InRange, signed, bits, IntTy.range]

theorem switch_exact {ovf : IntTy → Int → Int} {t : IntTy} {n : Int} (ht : Handled t)
    (hr : InRange t n) (hn : Representable n) : switchF64 ovf t (roundF64 n) = n := by
  rw [switchF64_handled ht, (roundF64_eq_iff n).2 hn, convert]
  exact if_pos ((inRange_iff t n).1 hr)

/-- C49: an integer of at most 53 significant bits, of any integer type but int8 and uint8, comes back
as it was set. This is the part that holds; the other values are `C49_wrong_value_refuted`. -/
theorem C49_custom_int_partial {ser : Serializer B (Val X) E} (hl : Lawful ser jsonNorm)
    (henc : ∀ m, ∃ b, ser.encode m = .ok b) (ovf : IntTy → Int → Int) (w : Wrapper B E)
    (key : String) (t : IntTy) (n : Int) (ht : Handled t) (hr : InRange t n) (hn : Representable n) :
    (∀ h m0, w.req.header = some h → Custom ser w.req = some m0 →
      (ser.isEmpty h.custom = false → ser.decode h.custom ≠ .ok none) →
      setGetReq ser ovf w key t n = .ret n) ∧
    (∀ h m0, w.res.header = some h → Custom ser w.res = some m0 →
      (ser.isEmpty h.custom = false → ser.decode h.custom ≠ .ok none) →
      setGetRes ser ovf w key t n = .ret n) := by
  refine ⟨fun h m0 hh hc hnil => ?_, fun h m0 hh hc hnil => ?_⟩
  · rw [setGetReq_eq hl henc ovf w hh hc hnil, switch_exact ht hr hn]
  · rw [setGetRes_eq hl henc ovf w hh hc hnil, switch_exact ht hr hn]

/-- Every value of at most 32 bits, and every value up to 2^53, is covered by C49. -/
theorem C49_small_representable (n : Int) (h : n.natAbs ≤ 2 ^ 53) : Representable n := by
  by_cases hn : n.natAbs = 2 ^ 53
  · exact ⟨1, 53, by omega, by omega⟩
  · exact ⟨n.natAbs, 0, by omega, by omega⟩

/-- C49 fails for every other value, unless the nearest float64 is outside the type: what comes back
is another number. And it fails for every int8 and uint8 but 0. -/
theorem C49_wrong_value_refuted {ser : Serializer B (Val X) E} (hl : Lawful ser jsonNorm)
    (henc : ∀ m, ∃ b, ser.encode m = .ok b) (ovf : IntTy → Int → Int) (w : Wrapper B E)
    {h : Header B} (hh : w.req.header = some h) {m0 : String → Option (Val X)}
    (hc : Custom ser w.req = some m0)
    (hnil : ser.isEmpty h.custom = false → ser.decode h.custom ≠ .ok none) (key : String) :
    (∀ t n, Handled t → ¬ Representable n → InRange t (roundF64 n) →
      setGetReq ser ovf w key t n ≠ .ret n) ∧
    (∀ n, n ≠ 0 → setGetReq ser ovf w key .int8 n ≠ .ret n ∧
      setGetReq ser ovf w key .uint8 n ≠ .ret n) := by
  refine ⟨fun t n ht hn hr => ?_, fun n hn => ?_⟩
  · rw [setGetReq_eq hl henc ovf w hh hc hnil, switchF64_handled ht, convert]
    intro he
    rw [if_pos (show t.range.1 ≤ _ ∧ _ < t.range.2 from (inRange_iff t _).1 hr)] at he
    simp only [Out.ret.injEq] at he
    exact hn ((roundF64_eq_iff n).1 he)
  · rw [setGetReq_eq hl henc ovf w hh hc hnil, setGetReq_eq hl henc ovf w hh hc hnil]
    simp only [switchF64, ne_eq, Out.ret.injEq]
    exact ⟨fun h => hn h.symm, fun h => hn h.symm⟩

/-- C49, the rest: if the nearest float64 is no value of the type, what comes back is up to the implementation of Go
(`ovf`). So for every type that is handled, what comes back is known from the bits of the type. -/
theorem C49_outside {ser : Serializer B (Val X) E} (hl : Lawful ser jsonNorm)
    (henc : ∀ m, ∃ b, ser.encode m = .ok b) (ovf : IntTy → Int → Int) (w : Wrapper B E)
    {h : Header B} (hh : w.req.header = some h) {m0 : String → Option (Val X)}
    (hc : Custom ser w.req = some m0)
    (hnil : ser.isEmpty h.custom = false → ser.decode h.custom ≠ .ok none) (key : String) (t : IntTy) (n : Int)
    (ht : Handled t) :
    (InRange t (roundF64 n) → setGetReq ser ovf w key t n = .ret (roundF64 n)) ∧
    (¬ InRange t (roundF64 n) → setGetReq ser ovf w key t n = .ret (ovf t (roundF64 n))) := by
  rw [setGetReq_eq hl henc ovf w hh hc hnil, switchF64_handled ht, convert, inRange_iff]
  exact ⟨fun h => by rw [if_pos h], fun h => by rw [if_neg h]⟩

/-- The serializer and wrapper of the examples: JSON numbers become float64. -/
def toyW : Wrapper (Option (Except Unit (GoMap (Val Unit)))) Unit :=
  ⟨⟨some (hdrWith none), none⟩, ⟨some (hdrWith none), none⟩, none⟩

theorem jsonNorm_idem (v : Val X) : jsonNorm (jsonNorm v) = jsonNorm v := by cases v <;> rfl

/-- An int64 that comes back, and one that does not: 2^53 + 1 comes back as 2^53. -/
example (ovf : IntTy → Int → Int) :
    setGetReq (toySer (Val Unit) jsonNorm) ovf toyW "k" .int64 (-123456789) = .ret (-123456789) :=
  (C49_custom_int_partial (toySer_lawful jsonNorm_idem) (fun _ => ⟨_, rfl⟩) ovf toyW "k" .int64 _
    ⟨by decide, by decide⟩ (by simp [InRange, signed, bits]) (C49_small_representable _ (by decide))).1 _ _ rfl rfl
    (by intro h; cases h)

example (ovf : IntTy → Int → Int) :
    setGetReq (toySer (Val Unit) jsonNorm) ovf toyW "k" .int64 (2 ^ 53 + 1) = .ret (2 ^ 53) := by
  rw [setGetReq_eq (toySer_lawful jsonNorm_idem) (fun _ => ⟨_, rfl⟩) ovf toyW rfl rfl
    (by intro h; cases h)]
  have : roundF64 (2 ^ 53 + 1) = 2 ^ 53 := by decide +kernel
  rw [this]
  simp [switchF64, convert, IntTy.range]

/-- The greatest int64 is read as 2^63, which is none. -/
example (ovf : IntTy → Int → Int) :
    setGetReq (toySer (Val Unit) jsonNorm) ovf toyW "k" .int64 (2 ^ 63 - 1) = .ret (ovf .int64 (2 ^ 63)) := by
  have hf : roundF64 (2 ^ 63 - 1) = 2 ^ 63 := by decide +kernel
  have := (C49_outside (toySer_lawful jsonNorm_idem) (fun _ => ⟨_, rfl⟩) ovf toyW rfl rfl (by intro h; cases h) "k" .int64
    (2 ^ 63 - 1) ⟨by decide, by decide⟩).2 (by rw [hf]; simp [InRange, signed, bits])
  rwa [hf] at this

/-! ### C50 -/

/-- C50 fails: `WithReqHeader` leaves the timestamp of a header that was there already (and
`NewBuilder` puts one there). -/
theorem C50_header_copied_refuted (b : B) : ∃ (w : Wrapper B E) (h : Header B),
    (withReqHeader w (some h)).req.header ≠ some h :=
  ⟨⟨⟨some (hdrWith b), b⟩, ⟨none, b⟩, none⟩, { hdrWith b with timestamp := 1 }, by
    simp [withReqHeader, hdrWith]⟩

/-- C50, the part that holds: every field but the timestamp is that of `h`; the timestamp is the old
one if there was a header, and that of `h` otherwise; nothing else is touched. -/
theorem C50_header_copied_partial (w : Wrapper B E) (h : Header B) :
    (withReqHeader w (some h)).req.header =
      some { h with timestamp := match w.req.header with
        | some old => old.timestamp
        | none => h.timestamp } ∧
    (withReqHeader w (some h)).req.body = w.req.body ∧ (withReqHeader w (some h)).res = w.res ∧
    (withReqHeader w (some h)).err = w.err := by
  unfold withReqHeader
  cases hw : w.req.header <;> simp

/-- A case: the event and the token are copied over another header. -/
example : (withReqHeader (⟨⟨some (hdrWith 0), 0⟩, ⟨none, 0⟩, none⟩ : Wrapper Nat Unit)
      (some { hdrWith 7 with event := "e", token := "t" })).req.header =
    some { hdrWith 7 with event := "e", token := "t" } := by
  rw [(C50_header_copied_partial _ _).1]; rfl

end Braid.Msg
