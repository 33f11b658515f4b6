import Verif.Msg.Model

/-
What the properties C48, C49 and C50 say about messages.
-/
namespace Braid.Msg.Spec
variable {B V E : Type}

/-- A serializer that loses nothing but the normal form of values: what was encoded is decoded with
every value replaced by `norm` of it (for JSON: integers become float64), nil stays nil, and decoded
values are in normal form. A lossless serializer is the case `norm = id`. -/
structure Lawful (ser : Serializer B V E) (norm : V → V) : Prop where
  roundtrip : ∀ f b, ser.encode (some f) = .ok b → ser.decode b = .ok (some fun k => (f k).map norm)
  roundtrip_nil : ∀ b, ser.encode none = .ok b → ser.decode b = .ok none
  /-- The encoding of a map is never the empty string (`{}`, `null`). -/
  nonempty : ∀ m b, ser.encode m = .ok b → ser.isEmpty b = false
  normal : ∀ b m k v, ser.decode b = .ok m → m.get k = some v → norm v = v

/-- The value of the last attribute with key `k`. -/
def lastValue (attrs : List (Attr V)) (k : String) : Option V :=
  (attrs.reverse.find? fun a => a.key = k).map (·.value)

/-- The custom fields of a message: those the getters see. `none` if they cannot be decoded. -/
def Custom (ser : Serializer B V E) (m : Message B) : Option (String → Option V) :=
  match m.header with
  | none => none
  | some h =>
    if ser.isEmpty h.custom then some fun _ => none
    else match ser.decode h.custom with
      | .ok m => some m.get
      | .error _ => none

/-- Two messages that differ at most in the custom data. -/
def SameButCustom (m m' : Message B) : Prop :=
  m'.body = m.body ∧ match m.header, m'.header with
    | some h, some h' => { h' with custom := h.custom } = h
    | none, none => True
    | _, _ => False

/-- An integer that is exactly a float64: at most 53 significant bits. -/
def Representable (n : Int) : Prop := ∃ m e : Nat, n.natAbs = m * 2 ^ e ∧ m < 2 ^ 53

/-- The types that the getters handle. -/
def Handled (t : IntTy) : Prop := t ≠ .int8 ∧ t ≠ .uint8

/-- The number of bits of a type; `int` and `uint` have 64. -/
def bits : IntTy → Nat
  | .int8 | .uint8 => 8
  | .int16 | .uint16 => 16
  | .int32 | .uint32 => 32
  | .int64 | .uint64 | .int | .uint => 64

/-- Whether a type has negative values. -/
def signed : IntTy → Bool
  | .int | .int8 | .int16 | .int32 | .int64 => true
  | _ => false

/-- `n` is a value of the type `t`, in two's complement if it is signed. -/
def InRange (t : IntTy) (n : Int) : Prop :=
  if signed t then -2 ^ (bits t - 1) ≤ n ∧ n < 2 ^ (bits t - 1) else 0 ≤ n ∧ n < 2 ^ bits t

end Braid.Msg.Spec
