import Verif.Wire.Normal
import Verif.Wire.Unique

/-
What the decoders accept (C120), and what becomes of it when it is encoded again (C119).
-/
namespace Braid.Wire
open Spec

/-! ### C119 -/

/-- **C119** (no amplification). Decoding adds at most the bytes of its input to the encoding of what the receiver held
before, whatever the input: fields that come again, headers in pieces, long forms of numbers, unknown fields. -/
theorem C119_no_amplification (d : Bytes) (hd : d.length < 2 ^ 63) :
    (∀ m m', unmarshalHeader m d = .ok m' → sizeHeader m' ≤ sizeHeader m + d.length) ∧
    (∀ m m', unmarshalMessage m d = .ok m' → sizeMessage m' ≤ sizeMessage m + d.length) ∧
    (∀ m m', unmarshalRouteReq m d = .ok m' → sizeRoute m'.msg ≤ sizeRoute m.msg + d.length) ∧
    (∀ m m', unmarshalRouteRes m d = .ok m' → sizeRoute m'.msg ≤ sizeRoute m.msg + d.length) := by
  have hq : ∀ m, sizeRoute m = (routeBytes 1 m).length := fun m => by rw [sizeRoute_eq 1 _ sv10 m]; cases m <;> rfl
  have hs : ∀ m, sizeRoute m = (routeBytes 2 m).length := fun m => by rw [sizeRoute_eq 2 _ sv18 m]; cases m <;> rfl
  refine ⟨fun m m' h => ?_, fun m m' h => ?_, fun m m' h => ?_, fun m m' h => ?_⟩
  · rw [sizeHeader_eq, sizeHeader_eq]; exact header_le ((header_iff m d m' hd).1 h)
  · rw [sizeMessage_eq, sizeMessage_eq]; exact message_le ((message_iff m d m' hd).1 h)
  · rw [hq, hq]; exact route_le 1 (by omega) ((req_iff m d m' hd).1 h)
  · rw [hs, hs]; exact route_le 2 (by omega) ((res_iff m d m' hd).1 h)

/-- **C119** (normal form). What was decoded from any bytes into an empty message can be encoded; the encoding is not longer
than these bytes, and it decodes to the same message. -/
theorem C119_normal_form (d : Bytes) (hd : d.length < 2 ^ 63) :
    (∀ m, unmarshalHeader {} d = .ok m → ∃ b, marshalHeader m = .ok b ∧ b.length ≤ d.length ∧ unmarshalHeader {} b = .ok m) ∧
    (∀ m, unmarshalMessage {} d = .ok m → ∃ b, marshalMessage m = .ok b ∧ b.length ≤ d.length ∧ unmarshalMessage {} b = .ok m) ∧
    (∀ m, unmarshalRouteReq {} d = .ok m →
      ∃ b, marshalRouteReq m = .ok b ∧ b.length ≤ d.length ∧ unmarshalRouteReq {} b = .ok m) ∧
    (∀ m, unmarshalRouteRes {} d = .ok m →
      ∃ b, marshalRouteRes m = .ok b ∧ b.length ≤ d.length ∧ unmarshalRouteRes {} b = .ok m) := by
  obtain ⟨h1, h2, h3, h4⟩ := C119_no_amplification d hd
  refine ⟨fun m h => ?_, fun m h => ?_, fun m h => ?_, fun m h => ?_⟩
  · have hl : (Spec.header m).length ≤ d.length := by
      have := h1 {} m h
      rw [sizeHeader_eq, sizeHeader_eq, header_empty] at this
      simpa using this
    exact ⟨_, marshalHeader_eq m, hl, unmarshalHeader_header m (by omega)⟩
  · have hl : (Spec.message m).length ≤ d.length := by
      have := h2 {} m h
      rw [sizeMessage_eq, sizeMessage_eq, message_empty] at this
      simpa using this
    exact ⟨_, marshalMessage_eq m, hl, unmarshalMessage_message m (by omega)⟩
  · have hl : (Spec.routeReq m).length ≤ d.length := by
      have := h3 {} m h
      rw [sizeRoute_eq 1 _ sv10, sizeRoute_eq 1 _ sv10] at this
      obtain ⟨_ | x⟩ := m
      · simp [Spec.routeReq]
      · simpa [Spec.routeReq] using this
    exact ⟨_, marshalRouteReq_eq m, hl, unmarshalRouteReq_routeReq m (by omega)⟩
  · have hl : (Spec.routeRes m).length ≤ d.length := by
      have := h4 {} m h
      rw [sizeRoute_eq 2 _ sv18, sizeRoute_eq 2 _ sv18] at this
      obtain ⟨_ | x⟩ := m
      · simp [Spec.routeRes]
      · simpa [Spec.routeRes] using this
    exact ⟨_, marshalRouteRes_eq m, hl, unmarshalRouteRes_routeRes m (by omega)⟩

/-- A message in an odd form: the header in two pieces, a body that comes twice, a length of two bytes. It takes 18 bytes, and
9 in the normal form. -/
def oddMessage : Bytes :=
  [0x0a, 0x03, 0x0a, 0x01, 0x61, 0x12, 0x02, 1, 2, 0x0a, 0x84, 0x00, 0x4a, 0x02, 0x62, 0x63, 0x12, 0x00]

example : unmarshalMessage {} oddMessage = .ok { header := some { id := [0x61], event := [0x62, 0x63] } } ∧
    marshalMessage { header := some { id := [0x61], event := [0x62, 0x63] } }
      = .ok [0x0a, 0x07, 0x0a, 0x01, 0x61, 0x4a, 0x02, 0x62, 0x63] := by
  refine ⟨by decide +kernel, ?_⟩
  rw [marshalMessage_eq]
  simp [Spec.message, Spec.header, Spec.optLen, Spec.lenField, Spec.varint]

/-! ### C120 -/

/-- **C120** (what is accepted). Each decoder accepts exactly the byte strings of the grammar, and returns what the grammar
says: the fields are applied from left to right to what the receiver held before. -/
theorem C120_accepted_exact (d : Bytes) (hd : d.length < 2 ^ 63) :
    (∀ m m', unmarshalHeader m d = .ok m' ↔ HeaderOf m d m') ∧
    (∀ m m', unmarshalMessage m d = .ok m' ↔ MessageOf m d m') ∧
    (∀ m m', unmarshalRouteReq m d = .ok m' ↔ RouteOf 1 m.msg d m'.msg) ∧
    (∀ m m', unmarshalRouteRes m d = .ok m' ↔ RouteOf 2 m.msg d m'.msg) :=
  ⟨fun m m' => header_iff m d m' hd, fun m m' => message_iff m d m' hd, fun m m' => req_iff m d m' hd,
    fun m m' => res_iff m d m' hd⟩

/-- **C120** (one reading). There is only one way to read bytes as fields. -/
theorem C120_unambiguous (d : Bytes) (fs gs : List Field) (hf : Readss fs d) (hg : Readss gs d) : fs = gs := readss_one hg hf

theorem header_functional : Functional Applies := fun m f x y hx hy => by
  have h1 : apply m f = some x := hx
  have h2 : apply m f = some y := hy
  rw [h1] at h2
  injection h2

theorem headerOf_functional {m : Header} {d : Bytes} {x y : Header} (hx : HeaderOf m d x) (hy : HeaderOf m d y) : x = y := by
  obtain ⟨fs, h1, -, h2⟩ := hx
  obtain ⟨gs, h3, -, h4⟩ := hy
  rw [readss_one h1 h3, h2] at h4
  injection h4

theorem message_functional : Functional MessageStep := fun m f x y hx hy => by
  unfold MessageStep at hx hy
  split at hx
  · obtain ⟨h, h1, rfl⟩ := hx
    obtain ⟨h', h2, rfl⟩ := hy
    rw [headerOf_functional h1 h2]
  · rw [hx, hy]
  · rename_i h1 h2
    split at hy
    · exact absurd rfl (h1 _)
    · exact absurd rfl (h2 _)
    · rw [hx.2.2, hy.2.2]

theorem messageOf_functional {m : Message} {d : Bytes} {x y : Message} (hx : MessageOf m d x) (hy : MessageOf m d y) : x = y := by
  obtain ⟨fs, h1, -, h2⟩ := hx
  obtain ⟨gs, h3, -, h4⟩ := hy
  rw [readss_one h1 h3] at h4
  exact all_functional message_functional fs m x y h2 h4

theorem route_functional (k : Nat) : Functional (RouteStep k) := fun m f x y hx hy => by
  rcases hx with ⟨s, a, rfl, h1, rfl⟩ | ⟨h1, rfl⟩
  · rcases hy with ⟨s', b, h2, h3, rfl⟩ | ⟨h2, -⟩
    · injection h2 with _ h2
      subst h2
      rw [messageOf_functional h1 h3]
    · exact absurd rfl h2
  · rcases hy with ⟨s', b, rfl, h3, rfl⟩ | ⟨-, rfl⟩
    · exact absurd rfl h1
    · rfl

/-- **C120** (concatenation). Decoding bytes and then more bytes into the same message is decoding them together. -/
theorem C120_concatenation (d e : Bytes) (hd : (d ++ e).length < 2 ^ 63) :
    (∀ m m1 m', unmarshalHeader m d = .ok m1 → (unmarshalHeader m (d ++ e) = .ok m' ↔ unmarshalHeader m1 e = .ok m')) ∧
    (∀ m m1 m', unmarshalMessage m d = .ok m1 → (unmarshalMessage m (d ++ e) = .ok m' ↔ unmarshalMessage m1 e = .ok m')) ∧
    (∀ m m1 m', unmarshalRouteReq m d = .ok m1 → (unmarshalRouteReq m (d ++ e) = .ok m' ↔ unmarshalRouteReq m1 e = .ok m')) ∧
    (∀ m m1 m', unmarshalRouteRes m d = .ok m1 → (unmarshalRouteRes m (d ++ e) = .ok m' ↔ unmarshalRouteRes m1 e = .ok m')) := by
  have h1 : d.length < 2 ^ 63 := by simp at hd; omega
  have h2 : e.length < 2 ^ 63 := by simp at hd; omega
  refine ⟨fun m m1 m' h => ?_, fun m m1 m' h => ?_, fun m m1 m' h => ?_, fun m m1 m' h => ?_⟩
  · rw [header_iff _ _ _ hd, header_iff _ _ _ h2]
    rw [header_iff _ _ _ h1] at h
    unfold HeaderOf at *
    simp only [← all_apply] at *
    exact concat_iff header_functional m m1 m' d e h
  · rw [message_iff _ _ _ hd, message_iff _ _ _ h2]
    rw [message_iff _ _ _ h1] at h
    exact concat_iff message_functional m m1 m' d e h
  · rw [req_iff _ _ _ hd, req_iff _ _ _ h2]
    rw [req_iff _ _ _ h1] at h
    exact concat_iff (route_functional 1) m.msg m1.msg m'.msg d e h
  · rw [res_iff _ _ _ hd, res_iff _ _ _ h2]
    rw [res_iff _ _ _ h1] at h
    exact concat_iff (route_functional 2) m.msg m1.msg m'.msg d e h

/-- **C120** (the format is accepted). A message of the format, in any of its forms, is read as its fields: it is rejected
only when a known field has the wrong type. -/
theorem C120_wellformed_partial (fs : List Field) (d : Bytes) (h : Stricts fs d) (hd : d.length < 2 ^ 63) :
    (∀ m m', unmarshalHeader m d = .ok m' ↔ applyAll m fs = some m') ∧
    (∀ m m', unmarshalMessage m d = .ok m' ↔ All MessageStep m fs m') ∧
    (∀ m m', unmarshalRouteReq m d = .ok m' ↔ All (RouteStep 1) m.msg fs m'.msg) ∧
    (∀ m m', unmarshalRouteRes m d = .ok m' ↔ All (RouteStep 2) m.msg fs m'.msg) := by
  obtain ⟨h1, h2⟩ := stricts_reads fs d h
  refine ⟨fun m m' => ?_, fun m m' => ?_, fun m m' => ?_, fun m m' => ?_⟩
  · rw [header_iff m d m' hd]
    exact ⟨fun ⟨gs, h3, _, h4⟩ => by rw [readss_one h1 h3] at h4; exact h4, fun h => ⟨fs, h1, h2, h⟩⟩
  · rw [message_iff m d m' hd]
    exact ⟨fun ⟨gs, h3, _, h4⟩ => by rw [readss_one h1 h3] at h4; exact h4, fun h => ⟨fs, h1, h2, h⟩⟩
  · rw [req_iff m d m' hd]
    exact ⟨fun ⟨gs, h3, _, h4⟩ => by rw [readss_one h1 h3] at h4; exact h4, fun h => ⟨fs, h1, h2, h⟩⟩
  · rw [res_iff m d m' hd]
    exact ⟨fun ⟨gs, h3, _, h4⟩ => by rw [readss_one h1 h3] at h4; exact h4, fun h => ⟨fs, h1, h2, h⟩⟩

/-- Such a form: a field in a group of an unknown field, and a length of two bytes. -/
example : Stricts [.group 5 [.varint 1 7], .len 1 [0x61]] [0x2b, 0x08, 0x07, 0x2c, 0x0a, 0x81, 0x00, 0x61] := by
  refine ⟨[0x2b, 0x08, 0x07, 0x2c], [0x0a, 0x81, 0x00, 0x61], rfl,
    ⟨[0x2b], [0x08, 0x07], [0x2c], rfl, ?_, ⟨[0x08, 0x07], [], rfl, ⟨[0x08], [0x07], rfl, ?_, ?_⟩, rfl⟩, ?_⟩,
    [0x0a, 0x81, 0x00, 0x61], [], rfl, ⟨[0x0a], [0x81, 0x00], rfl, ?_, ?_⟩, rfl⟩ <;>
    simp [StrictTag, StrictVarint, Shape, groups]

/-- A field number above 2^32: the decoder looks at 32 bits of it and takes the field for the one with number 1. -/
def aliased : Bytes := [0x8a, 0x80, 0x80, 0x80, 0x80, 0x01, 0x01, 0x61]
/-- A group of field 5 that the tag of another group ends. -/
def crossed : Bytes := [0x2b, 0x34]
/-- A number of more than 64 bits. -/
def overflown : Bytes := [0x58, 0x85, 0x80, 0x80, 0x80, 0x80, 0x80, 0x80, 0x80, 0x80, 0x02]

theorem first_tag {f : Field} {x : Bytes} (h : f.Strict x) : ∃ t y, x = t ++ y ∧ StrictTag t f.num (wt f) := by
  cases f <;> simp only [Field.Strict, Field.num, wt] at h ⊢
  · obtain ⟨t, p, rfl, ht, -⟩ := h; exact ⟨t, p, rfl, ht⟩
  · obtain ⟨t, rfl, ht, -⟩ := h; exact ⟨t, _, rfl, ht⟩
  · obtain ⟨t, p, rfl, ht, -⟩ := h; exact ⟨t, _, rfl, ht⟩
  · obtain ⟨t, b, e, rfl, ht, -⟩ := h; exact ⟨t, _, rfl, ht⟩
  · obtain ⟨t, rfl, ht, -⟩ := h; exact ⟨t, _, rfl, ht⟩

theorem aliased_bad : ¬ WellFormed aliased := by
  rintro ⟨fs, h⟩
  cases fs with
  | nil => cases h
  | cons f fs =>
    obtain ⟨x, y, h1, h2, -⟩ := h
    obtain ⟨t, z, rfl, ht⟩ := first_tag h2
    have hs : Shape [0x8a, 0x80, 0x80, 0x80, 0x80, 0x01] := by simp [Shape]
    have h3 := shape_unique [0x8a, 0x80, 0x80, 0x80, 0x80, 0x01] t [0x01, 0x61] (z ++ y) hs ht.1.1 (by
      rw [List.append_assoc] at h1; exact h1)
    subst h3
    have h4 := ht.1.2.2.1
    have h5 := ht.2.2
    have h6 : groups [0x8a, 0x80, 0x80, 0x80, 0x80, 0x01] = 34359738378 := by decide
    rw [h6] at h4
    have : wt f < 8 := by cases f <;> simp [wt]
    omega

theorem crossed_reads : Readss [.group 5 []] crossed := by
  refine ⟨crossed, [], rfl, ⟨[0x2b], [], [0x34], 6, rfl, ⟨43, ?_, rfl, rfl⟩, rfl, ⟨52, ?_, rfl, rfl⟩⟩, rfl⟩ <;>
    simp [Varint, Shape, groups]

theorem crossed_bad : ¬ WellFormed crossed := by
  rintro ⟨fs, h⟩
  obtain ⟨h1, -⟩ := stricts_reads fs _ h
  rw [readss_one crossed_reads h1] at h
  obtain ⟨x, y, h2, ⟨t, b, e, rfl, ht, hb, he⟩, hy⟩ := h
  have hb : b = [] := hb
  have hy : y = [] := hy
  subst hb hy
  have h3 := shape_unique [0x2b] t [0x34] e (by simp [Shape]) ht.1.1 (by simpa [crossed] using h2)
  subst h3
  have h4 : e = [0x34] := by simpa [crossed] using h2.symm
  subst h4
  have := he.1.2.2.1
  simp [groups] at this

theorem overflown_bad : ¬ WellFormed overflown := by
  rintro ⟨fs, h⟩
  obtain ⟨h1, -⟩ := stricts_reads fs _ h
  have hr : Readss [.varint 11 5] overflown := by
    refine ⟨overflown, [], rfl, ⟨[0x58], [0x85, 0x80, 0x80, 0x80, 0x80, 0x80, 0x80, 0x80, 0x80, 0x02], rfl,
      ⟨88, ?_, rfl, rfl⟩, ?_⟩, rfl⟩ <;> simp [Varint, Shape, groups]
  rw [readss_one hr h1] at h
  obtain ⟨x, y, h2, ⟨t, p, rfl, ht, hp⟩, hy⟩ := h
  have hy : y = [] := hy
  subst hy
  have h3 := shape_unique [0x58] t [0x85, 0x80, 0x80, 0x80, 0x80, 0x80, 0x80, 0x80, 0x80, 0x02] p (by simp [Shape]) ht.1.1
    (by simpa [overflown] using h2)
  subst h3
  have h4 : p = [0x85, 0x80, 0x80, 0x80, 0x80, 0x80, 0x80, 0x80, 0x80, 0x02] := by simpa [overflown] using h2.symm
  subst h4
  have := hp.2.2.1
  simp [groups] at this

/-- **C120, refuted**: the decoders accept bytes that are no message of the format, and take their fields for known ones:
the id of a header is set by a field with another number, a group is ended by the tag of another one, and a number that does
not fit in 64 bits is cut. -/
theorem C120_malformed_refuted :
    (¬ WellFormed aliased ∧ unmarshalHeader {} aliased = .ok { id := [0x61] }) ∧
    (¬ WellFormed crossed ∧ unmarshalHeader {} crossed = .ok {}) ∧
    (¬ WellFormed overflown ∧ unmarshalHeader {} overflown = .ok { timestamp := 5 }) :=
  ⟨⟨aliased_bad, by decide +kernel⟩, ⟨crossed_bad, (header_iff {} crossed {} (by decide)).2
    ⟨[.group 5 []], crossed_reads, by simp [Top, Field.num], rfl⟩⟩, ⟨overflown_bad, by decide +kernel⟩⟩

end Braid.Wire
