import Verif.Wire.Spec

/-
The byte strings that the decoders of `router/router.pb.go` take for messages, as a grammar, and the stricter grammar of the
protocol buffers format (https://protobuf.dev/programming-guides/encoding). Nothing here refers to the decoders.
-/
namespace Braid.Wire.Spec

/-- A varint: all bytes but the last have the high bit set. -/
def Shape : Bytes → Prop
  | [] => False
  | [b] => b.toNat < 128
  | b :: bs => 128 ≤ b.toNat ∧ Shape bs

/-- The number that a varint stands for: groups of seven bits, the least significant first. -/
def groups : Bytes → Nat
  | [] => 0
  | b :: bs => b.toNat % 128 + 128 * groups bs

/-- A varint as the decoders read it: at most ten bytes, not necessarily the shortest form; bits beyond 64 are dropped. -/
def Varint (bs : Bytes) (v : Nat) : Prop := Shape bs ∧ bs.length ≤ 10 ∧ v = groups bs % 2 ^ 64

/-- A tag as the decoders read it: the wire type, and the field number, of which only 32 bits are looked at. -/
def Tag (bs : Bytes) (num wt : Nat) : Prop := ∃ v, Varint bs v ∧ wt = v % 8 ∧ num = v / 8 % 2 ^ 32

mutual
/-- The byte strings that the decoders take for a field. The tag at the end of a group may have another number than the one at
its beginning. -/
def Field.Reads : Field → Bytes → Prop
  | .varint n v, bs => ∃ t p, bs = t ++ p ∧ Tag t n 0 ∧ Varint p v
  | .fixed64 n s, bs => ∃ t, bs = t ++ s ∧ Tag t n 1 ∧ s.length = 8
  | .len n s, bs => ∃ t p, bs = t ++ (p ++ s) ∧ Tag t n 2 ∧ Varint p s.length
  | .group n fs, bs => ∃ t b e n', bs = t ++ (b ++ e) ∧ Tag t n 3 ∧ Readss fs b ∧ Tag e n' 4
  | .fixed32 n s, bs => ∃ t, bs = t ++ s ∧ Tag t n 5 ∧ s.length = 4
/-- The byte strings that the decoders take for a sequence of fields. -/
def Readss : List Field → Bytes → Prop
  | [], bs => bs = []
  | f :: fs, bs => ∃ x y, bs = x ++ y ∧ f.Reads x ∧ Readss fs y
end

/-- The number of a field of the message itself, not of a field inside an unknown group, is positive as an int32. -/
def Top (fs : List Field) : Prop := ∀ f ∈ fs, 0 < f.num ∧ f.num < 2 ^ 31

/-- The bytes `d` turn the header `m` into `m'`: they are fields, which are applied from left to right. -/
def HeaderOf (m : Header) (d : Bytes) (m' : Header) : Prop := ∃ fs, Readss fs d ∧ Top fs ∧ applyAll m fs = some m'

/-- What a field does to a message. -/
def MessageStep (m : Message) : Field → Message → Prop
  | .len 1 s, m' => ∃ h, HeaderOf (m.header.getD {}) s h ∧ m' = { m with header := some h }
  | .len 2 s, m' => m' = { m with body := s }
  | f, m' => f.num ≠ 1 ∧ f.num ≠ 2 ∧ m' = m

/-- A sequence of fields, from left to right. -/
def All {M : Type} (step : M → Field → M → Prop) : M → List Field → M → Prop
  | m, [], m' => m' = m
  | m, f :: fs, m' => ∃ x, step m f x ∧ All step x fs m'

/-- The bytes `d` turn the message `m` into `m'`. -/
def MessageOf (m : Message) (d : Bytes) (m' : Message) : Prop := ∃ fs, Readss fs d ∧ Top fs ∧ All MessageStep m fs m'

/-- What a field does to the message of a request or response, which has number `k`. -/
def RouteStep (k : Nat) (m : Option Message) (f : Field) (m' : Option Message) : Prop :=
  (∃ s x, f = .len k s ∧ MessageOf (m.getD {}) s x ∧ m' = some x) ∨ (f.num ≠ k ∧ m' = m)

/-- The bytes `d` turn the message of a request or response into another. -/
def RouteOf (k : Nat) (m : Option Message) (d : Bytes) (m' : Option Message) : Prop :=
  ∃ fs, Readss fs d ∧ Top fs ∧ All (RouteStep k) m fs m'

/-! ### The format -/

/-- A varint of the format: of at most ten bytes, not necessarily the shortest form, and below 2^64. -/
def StrictVarint (bs : Bytes) (v : Nat) : Prop := Shape bs ∧ bs.length ≤ 10 ∧ v = groups bs ∧ v < 2 ^ 64

/-- A tag of the format: numbers are between 1 and 2^29 - 1. -/
def StrictTag (bs : Bytes) (num wt : Nat) : Prop := StrictVarint bs (num * 8 + wt) ∧ 0 < num ∧ num < 2 ^ 29

mutual
/-- A field of the format. -/
def Field.Strict : Field → Bytes → Prop
  | .varint n v, bs => ∃ t p, bs = t ++ p ∧ StrictTag t n 0 ∧ StrictVarint p v
  | .fixed64 n s, bs => ∃ t, bs = t ++ s ∧ StrictTag t n 1 ∧ s.length = 8
  | .len n s, bs => ∃ t p, bs = t ++ (p ++ s) ∧ StrictTag t n 2 ∧ StrictVarint p s.length
  | .group n fs, bs => ∃ t b e, bs = t ++ (b ++ e) ∧ StrictTag t n 3 ∧ Stricts fs b ∧ StrictTag e n 4
  | .fixed32 n s, bs => ∃ t, bs = t ++ s ∧ StrictTag t n 5 ∧ s.length = 4
/-- A message of the format: a sequence of fields. -/
def Stricts : List Field → Bytes → Prop
  | [], bs => bs = []
  | f :: fs, bs => ∃ x y, bs = x ++ y ∧ f.Strict x ∧ Stricts fs y
end

/-- The bytes are a message of the format. -/
def WellFormed (d : Bytes) : Prop := ∃ fs, Stricts fs d

end Braid.Wire.Spec
