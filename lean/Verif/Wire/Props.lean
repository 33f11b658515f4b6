import Verif.Wire.Round
import Verif.Wire.Safe

/-
Properties C44, C45, C46 and C47: the wire format.
-/
namespace Braid.Wire

/-- A header that uses every kind of field: strings, a negative timestamp, raw bytes. -/
def sampleHeader : Header :=
  { id := [0x61], token := List.replicate 200 0xff, timestamp := -5, custom := [0, 0x80] }
def sampleMessage : Message := { header := some sampleHeader, body := [1, 2, 3] }

/-! ### C44 -/

/-- **C44** (round trip). Every message whose encoding fits in a Go slice (fewer than 2^63 bytes) is
encoded without a panic, and decoding the result into an empty message gives the message back. -/
theorem C44_message_roundtrip (m : Message) (h : (Spec.message m).length < 2 ^ 63) :
    ∃ b, marshalMessage m = .ok b ∧ unmarshalMessage {} b = .ok m :=
  ⟨_, marshalMessage_eq m, unmarshalMessage_message m h⟩

/-- **C44** for headers. -/
theorem C44_header_roundtrip (m : Header) (h : (Spec.header m).length < 2 ^ 63) :
    ∃ b, marshalHeader m = .ok b ∧ unmarshalHeader {} b = .ok m :=
  ⟨_, marshalHeader_eq m, unmarshalHeader_header m h⟩

/-- **C44** for requests. -/
theorem C44_req_roundtrip (m : RouteReq) (h : (Spec.routeReq m).length < 2 ^ 63) :
    ∃ b, marshalRouteReq m = .ok b ∧ unmarshalRouteReq {} b = .ok m :=
  ⟨_, marshalRouteReq_eq m, unmarshalRouteReq_routeReq m h⟩

/-- **C44** for responses. -/
theorem C44_res_roundtrip (m : RouteRes) (h : (Spec.routeRes m).length < 2 ^ 63) :
    ∃ b, marshalRouteRes m = .ok b ∧ unmarshalRouteRes {} b = .ok m :=
  ⟨_, marshalRouteRes_eq m, unmarshalRouteRes_routeRes m h⟩

/-- **C44** (format). The bytes are the protocol buffers encoding, so other implementations of the
format can read them. -/
theorem C44_encoding (m : Message) (r : RouteReq) (s : RouteRes) :
    marshalMessage m = .ok (Spec.message m) ∧ marshalRouteReq r = .ok (Spec.routeReq r) ∧
      marshalRouteRes s = .ok (Spec.routeRes s) :=
  ⟨marshalMessage_eq m, marshalRouteReq_eq r, marshalRouteRes_eq s⟩

/-- The hypothesis holds for a message with a nested header, a long token and a negative timestamp. -/
example : (Spec.routeReq ⟨some sampleMessage⟩).length < 2 ^ 63 := by
  have : (Spec.routeReq ⟨some sampleMessage⟩).length = sizeRoute (some sampleMessage) :=
    (sizeRoute_eq 1 _ sv10 (some sampleMessage)).symm
  rw [this]; decide +kernel

/-- An absent and an empty header are told apart. -/
example : Spec.message {} = [] ∧ Spec.message { header := some {} } = [0x0a, 0x00] := by
  constructor <;> simp [Spec.message, Spec.optLen, Spec.lenField, Spec.header, Spec.varint]

/-! ### C45 -/

/-- **C45** (exact size). `Size` is the number of bytes that `Marshal` returns. -/
theorem C45_size_exact (h : Header) (m : Message) (r : RouteReq) (s : RouteRes) :
    (∃ b, marshalHeader h = .ok b ∧ b.length = sizeHeader h) ∧
    (∃ b, marshalMessage m = .ok b ∧ b.length = sizeMessage m) ∧
    (∃ b, marshalRouteReq r = .ok b ∧ b.length = sizeRoute r.msg) ∧
    (∃ b, marshalRouteRes s = .ok b ∧ b.length = sizeRoute s.msg) :=
  ⟨⟨_, marshalHeader_eq h, (sizeHeader_eq h).symm⟩, ⟨_, marshalMessage_eq m, (sizeMessage_eq m).symm⟩,
    ⟨_, marshalRouteReq_eq r, (sizeRoute_eq 1 _ sv10 r.msg).symm⟩,
    ⟨_, marshalRouteRes_eq s, (sizeRoute_eq 2 _ sv18 s.msg).symm⟩⟩

/-- **C45** (no overrun). With any buffer `a ++ j` whose last part `j` has `Size` bytes, the backwards
writer does not panic, leaves `a` as it is, overwrites exactly `j`, and reports `Size` bytes. -/
theorem C45_exact_fill (m : Message) (a j : Bytes) (hj : j.length = sizeMessage m) :
    ∃ b, marshalMessageTo m (a ++ j) = .ok (a ++ b, sizeMessage m) ∧ b.length = sizeMessage m := by
  refine ⟨Spec.message m, ?_, (sizeMessage_eq m).symm⟩
  rw [mto_message m a j (by rw [hj, sizeMessage_eq]), sizeMessage_eq]

/-- With one byte less it would run out: the writer needs the whole `Size`. -/
example : marshalHeaderTo { id := [1, 2] } [0, 0, 0, 0] = .ok ([0x0a, 2, 1, 2], 4) ∧
    marshalHeaderTo { id := [1, 2] } [0, 0, 0] = .panic := by
  refine ⟨?_, ?_⟩
  · have := mto_header { id := [1, 2] } [] [0, 0, 0, 0]
    simp [Spec.header, Spec.optLen, Spec.lenField, Spec.varint] at this
    exact this
  · simp [marshalHeaderTo, putBytes, putInt64, copyAt, encodeVarint, encodeVarintLoop, sov, len64,
      setAt, putTag, Nat.log2_def]

/-! ### C46 -/

/-- An outcome that is a message or an error: no out-of-range access, no endless loop. -/
def Returns {α : Type} (r : Res α) : Prop := (∃ a, r = .ok a) ∨ ∃ e, r = .err e

theorem returns_of_safe {α : Type} {r : Res α} {P : α → Prop} (h : Safe r P) : Returns r := by
  cases r with
  | ok a => exact .inl ⟨a, rfl⟩
  | err e => exact .inr ⟨e, rfl⟩
  | panic => exact h.elim
  | fuel => exact h.elim

/-- **C46**. On every byte string (of a length a Go slice can have), whatever the receiver held
before, each decoder returns a message or an error. -/
theorem C46_decode_total (d : Bytes) (hd : d.length < 2 ^ 63) :
    (∀ m, Returns (unmarshalHeader m d)) ∧ (∀ m, Returns (unmarshalMessage m d)) ∧
    (∀ m, Returns (unmarshalRouteReq m d)) ∧ (∀ m, Returns (unmarshalRouteRes m d)) ∧
    Returns (skipRouter d) :=
  ⟨fun m => returns_of_safe (unmarshalHeader_safe m d hd),
    fun m => returns_of_safe (unmarshalMessage_safe m d hd),
    fun m => returns_of_safe (unmarshalRouteReq_safe m d hd),
    fun m => returns_of_safe (unmarshalRouteRes_safe m d hd),
    returns_of_safe (skipRouter_safe d hd)⟩

/-- Hostile inputs: a length whose sum with the index wraps around, a truncated varint, an
unterminated group. -/
example : unmarshalMessage {} [0x12, 0xff, 0xff, 0xff, 0xff, 0xff, 0xff, 0xff, 0xff, 0x7f]
      = .err .invalidLength ∧
    unmarshalMessage {} [0x12, 0xff] = .err .eof ∧
    unmarshalMessage {} [0x1b, 0x08, 0x01] = .err .eof := by
  decide +kernel

/-! ### C47 -/

/-- **C47** (general form). Decoding a sequence of well-formed fields into a header `m` applies the
fields from left to right, where unknown fields do nothing; it is an error exactly if a field with
a known number has the wrong wire type. -/
theorem C47_header_fields (fs : List Spec.Field) (m : Header) (hok : ∀ f ∈ fs, f.Ok)
    (hl : (Spec.encs fs).length < 2 ^ 63) :
    unmarshalHeader m (Spec.encs fs) =
      match Spec.applyAll m fs with
      | some m' => .ok m'
      | none => .err .wrongWire :=
  unmarshalHeader_fields fs m ((oks_iff fs).2 hok) hl

/-- **C47** (unknown fields). A well-formed field with an unknown number, inserted anywhere between
well-formed fields, does not change the decoded header. -/
theorem C47_unknown_ignored (xs ys : List Spec.Field) (u : Spec.Field) (m : Header)
    (hok : ∀ f ∈ xs ++ u :: ys, f.Ok) (hu : u.num ∉ Spec.headerNums)
    (hl : (Spec.encs (xs ++ u :: ys)).length < 2 ^ 63) :
    unmarshalHeader m (Spec.encs (xs ++ u :: ys)) = unmarshalHeader m (Spec.encs (xs ++ ys)) := by
  have hok' : ∀ f ∈ xs ++ ys, f.Ok := fun f hf => hok f (by
    simp only [List.mem_append, List.mem_cons] at hf ⊢
    rcases hf with hf | hf
    · exact .inl hf
    · exact .inr (.inr hf))
  have hl' : (Spec.encs (xs ++ ys)).length < 2 ^ 63 := by
    simp only [encs_append, Spec.encs, List.length_append] at hl ⊢; omega
  rw [C47_header_fields _ m hok hl, C47_header_fields _ m hok' hl', applyAll_append, applyAll_append]
  cases Spec.applyAll m xs with
  | none => rfl
  | some h => simp only [Option.bind_some, Spec.applyAll, apply_unknown h u hu]

/-- **C47** (last value). If decoding succeeds, the result holds the value of every field that is not
followed by another one with the same number. -/
theorem C47_last_wins (xs ys : List Spec.Field) (f : Spec.Field) (m h : Header)
    (hok : ∀ g ∈ xs ++ f :: ys, g.Ok) (hlast : ∀ g ∈ ys, g.num ≠ f.num)
    (hl : (Spec.encs (xs ++ f :: ys)).length < 2 ^ 63)
    (hd : unmarshalHeader m (Spec.encs (xs ++ f :: ys)) = .ok h) : Spec.Holds h f := by
  rw [C47_header_fields _ m hok hl, applyAll_append] at hd
  cases hx : Spec.applyAll m xs with
  | none => rw [hx] at hd; cases hd
  | some h1 =>
    rw [hx, Option.bind_some, Spec.applyAll] at hd
    cases hf : Spec.apply h1 f with
    | none => rw [hf] at hd; cases hd
    | some h2 =>
      rw [hf, Option.bind_some] at hd
      cases hy : Spec.applyAll h2 ys with
      | none => rw [hy] at hd; cases hd
      | some h3 =>
        rw [hy] at hd
        cases hd
        exact applyAll_keeps h2 h f ys hy hlast (apply_holds h1 h2 f hf)

/-- **C47** for messages. Unknown fields do nothing, the last body wins, and an embedded header is
merged field by field into the previous one. -/
theorem C47_message_fields (xs : List Spec.MsgField) (m : Message) (hok : ∀ x ∈ xs, x.Ok)
    (hl : (Spec.encMsg xs).length < 2 ^ 63) :
    unmarshalMessage m (Spec.encMsg xs) =
      match Spec.applyMsgAll m xs with
      | some m' => .ok m'
      | none => .err .wrongWire :=
  unmarshalMessage_fields xs m hok hl

/-- **C47** for requests and responses: unknown fields do nothing, and embedded messages are merged from left to right. -/
theorem C47_route_fields (xs : List Spec.RouteField) :
    (∀ m : RouteReq, (∀ x ∈ xs, x.Ok 1) → (Spec.encRoute 1 xs).length < 2 ^ 63 →
      unmarshalRouteReq m (Spec.encRoute 1 xs) =
        match Spec.applyRouteAll 1 m.msg xs with
        | some x => .ok ⟨x⟩
        | none => .err .wrongWire) ∧
    (∀ m : RouteRes, (∀ x ∈ xs, x.Ok 2) → (Spec.encRoute 2 xs).length < 2 ^ 63 →
      unmarshalRouteRes m (Spec.encRoute 2 xs) =
        match Spec.applyRouteAll 2 m.msg xs with
        | some x => .ok ⟨x⟩
        | none => .err .wrongWire) :=
  ⟨fun m hok hl => unmarshalRouteReq_fields xs m hok hl, fun m hok hl => unmarshalRouteRes_fields xs m hok hl⟩

/-- The hypotheses hold for a request with an unknown field and two messages, which are merged. -/
example : (∀ x ∈ [Spec.RouteField.msg [.body [1], .header [.len 1 [7]]], .other (.varint 9 3), .msg [.header [.len 9 [8]]]], x.Ok 1) ∧
    Spec.applyRouteAll 1 none [.msg [.body [1], .header [.len 1 [7]]], .other (.varint 9 3), .msg [.header [.len 9 [8]]]] =
      some (some { header := some { id := [7], event := [8] }, body := [1] }) := by
  constructor
  · simp [Spec.RouteField.Ok, Spec.MsgField.Ok, Spec.Field.Ok, Spec.Oks]
  · rfl

/-- The hypotheses hold for an unknown group with nested fields between two tokens. -/
example : (∀ f ∈ [Spec.Field.len 10 [1], .group 500 [.varint 3 7, .group 4 []], .len 10 [2]], f.Ok) ∧
    (Spec.Field.group 500 [.varint 3 7, .group 4 []]).num ∉ Spec.headerNums ∧
    Spec.applyAll {} [.len 10 [1], .group 500 [.varint 3 7, .group 4 []], .len 10 [2]]
      = some { token := [2] } := by
  refine ⟨?_, by simp [Spec.Field.num, Spec.headerNums], ?_⟩
  · simp [Spec.Field.Ok, Spec.Oks]
  · simp [Spec.applyAll, Spec.apply, Spec.Field.num, Spec.headerNums]

/-- A known number with the wrong wire type is rejected rather than ignored. -/
example : unmarshalHeader {} (Spec.encs [.varint 1 5]) = .err .wrongWire := by
  rw [C47_header_fields _ _ (by simp [Spec.Field.Ok]) (by
    simp [Spec.encs, Spec.Field.enc, Spec.varint])]
  simp [Spec.applyAll, Spec.apply, Spec.Field.num, Spec.headerNums]

end Braid.Wire
