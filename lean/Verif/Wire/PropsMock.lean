import Verif.Wire.Mock

/-
Property C130: the messages of the mock service.
-/
namespace Braid.Wire
open Spec

/-- **C130** (round trip). Every message is encoded without a panic, into the bytes of the protocol buffers format, as many as
`Size` says; decoding them gives the message back. -/
theorem C130_roundtrip (m : Mock) (h : (Spec.mock m).length < 2 ^ 63) :
    marshalMock m = .ok (Spec.mock m) ∧ sizeMock m = (Spec.mock m).length ∧ unmarshalMock {} (Spec.mock m) = .ok m :=
  ⟨marshalMock_eq m, sizeMock_eq m, unmarshal_mock m h⟩

/-- **C130** (buffers). `MarshalTo` writes the encoding at the beginning of a buffer that is large enough and leaves the rest as
it is; with a smaller buffer it panics. -/
theorem C130_buffer (m : Mock) (d : Bytes) :
    marshalMockInto m d = if (Spec.mock m).length ≤ d.length
      then .ok (Spec.mock m ++ d.drop (Spec.mock m).length, (Spec.mock m).length) else .panic := by
  unfold marshalMockInto
  rw [sizeMock_eq]
  by_cases h : (Spec.mock m).length ≤ d.length
  · rw [if_pos h]
    have hs : slice d 0 ((Spec.mock m).length : Int) = .ok (d.take (Spec.mock m).length) := by
      unfold slice
      rw [if_pos (by omega)]
      simp
    rw [hs, Res.bind_ok]
    have := mto_mock m [] (d.take (Spec.mock m).length) (by simp; omega)
    rw [List.nil_append] at this
    rw [this, Res.bind_ok]
    simp
  · rw [if_neg h]
    have hs : slice d 0 ((Spec.mock m).length : Int) = .panic := by
      unfold slice
      rw [if_neg (by omega)]
    rw [hs]; rfl

/-- **C130** (decoding). On every byte string the decoder returns a message or an error, whatever the receiver held before. -/
theorem C130_decode_total (m : Mock) (d : Bytes) (hd : d.length < 2 ^ 63) : Returns (unmarshalMock m d) :=
  returns_of_safe (unmarshalLoop_safe d hd _ (mock_safe d hd) _ 0 m (by omega) (by omega) (by omega))

/-- **C130** (what is decoded). The decoder accepts exactly the sequences of fields in which the fields with number 1 are strings;
the last of these is the message, and without one the receiver keeps what it held. Other fields do nothing. -/
theorem C130_decodes (m : Mock) (d : Bytes) (m' : Mock) (hd : d.length < 2 ^ 63) :
    unmarshalMock m d = .ok m' ↔ MockOf m d m' := mock_iff m d m' hd

/-- **C130** (a request for a response). The two types of messages have the same format, so what a client encodes as a request
decodes as a response with the same string; and two messages with the same encoding are the same. -/
theorem C130_injective (m m' : Mock) (h : (Spec.mock m).length < 2 ^ 63) (he : marshalMock m = marshalMock m') : m = m' := by
  rw [marshalMock_eq, marshalMock_eq] at he
  injection he with he
  have a := unmarshal_mock m h
  have b := unmarshal_mock m' (he ▸ h)
  rw [he, b] at a
  injection a with a
  exact a.symm

/-- The hypotheses hold; `Size` is not the length of the string. -/
example : (Spec.mock ⟨[0x68, 0x69]⟩).length < 2 ^ 63 ∧ Spec.mock ⟨[0x68, 0x69]⟩ = [0x0a, 2, 0x68, 0x69] ∧ sizeMock ⟨[0x68, 0x69]⟩ = 4 := by
  refine ⟨?_, ?_, ?_⟩ <;> simp [Spec.mock, optLen, lenField, Spec.varint, sizeMock_eq]

/-- Two strings with an unknown field between them: the last one. A number instead of a string: an error. -/
example : unmarshalMock {} [0x0a, 1, 0x61, 0x10, 5, 0x0a, 1, 0x62] = .ok ⟨[0x62]⟩ ∧ unmarshalMock {} [0x08, 1] = .err .wrongWire ∧
    unmarshalMock ⟨[7]⟩ [] = .ok ⟨[7]⟩ := by
  decide +kernel

end Braid.Wire
