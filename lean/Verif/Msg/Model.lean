/-
Model of `router/msg`: the message builder, custom fields and the typed getters.

`B` is the type of byte strings, with `isEmpty` for `len(b) == 0`; `V` the type of the values held
by a `map[string]any`; `E` the errors. The map serializer (`encoding/json`) is a parameter.
-/
namespace Braid.Msg

/-- A Go `map[string]any`: `none` is the nil map. (router/msg/msg_custom_map.go:10-44) -/
abbrev GoMap (V : Type) := Option (String → Option V)

/-- Looking up a key; a nil map has no keys. (router/msg/msg_custom_map.go:79-150) -/
def GoMap.get {V : Type} (m : GoMap V) (k : String) : Option V :=
  match m with
  | none => none
  | some f => f k

/-- router/router.pb.go:29-40 `type Header struct`. -/
structure Header (B : Type) where
  id : String
  orgActorID : String
  orgActorType : String
  prevActorType : String
  targetActorID : String
  targetActorType : String
  event : String
  token : String
  timestamp : Int
  custom : B
deriving DecidableEq

/-- router/router.pb.go:145-148 `type Message struct`; `header = none` is a nil pointer. -/
structure Message (B : Type) where
  header : Option (Header B)
  body : B
deriving DecidableEq

/-- router/msg/msg.go:20-28 `type Wrapper struct`, without the context, the serializers and `Done`. -/
structure Wrapper (B E : Type) where
  req : Message B
  res : Message B
  err : Option E

/-- router/msg/map_custom_serialize.go:9-12 `ICustomSerialize` used for maps, over byte strings `B`. -/
structure Serializer (B V E : Type) where
  isEmpty : B → Bool
  encode : GoMap V → Except E B
  decode : B → Except E (GoMap V)

/-- Outcome of a method: it returns, or it panics (nil pointer, assignment to a nil map).
(router/msg/msg_custom_map.go:10-73) -/
inductive Out (α : Type)
  | ret (a : α)
  | panic

/-- router/msg/msg_utils.go:10-13 `type Attr struct`. -/
structure Attr (V : Type) where
  key : String
  value : V

/-- router/msg/msg_custom_map.go:27-29: `for _, attr := range attrs { data[attr.Key] = attr.Value }`;
`none` is the panic of an assignment to a nil map. -/
def assignAll {V : Type} : GoMap V → List (Attr V) → Option (GoMap V)
  | m, [] => some m
  | none, _ :: _ => none
  | some f, a :: as => assignAll (some fun k => if k = a.key then some a.value else f k) as

variable {B V E : Type}

/-- router/msg/msg_custom_map.go:34-44 `WithReqCustomFieldsMap` and 63-73 `WithResCustomFieldsMap`, on
the request or response `m`: the new message, and the error recorded if any. The wrapping of the
error text is left out. -/
def fieldsMap (ser : Serializer B V E) (m : Message B) (data : GoMap V) :
    Out (Message B × Option E) :=
  match ser.encode data with
  | .error e => .ret (m, some e)
  | .ok b =>
    match m.header with
    | none => .panic
    | some h => .ret ({ m with header := some { h with custom := b } }, none)

/-- router/msg/msg_custom_map.go:10-32 `WithReqCustomFields` and 46-61 `WithResCustomFields`, on the
request or response `m`. -/
def fields (ser : Serializer B V E) (m : Message B) (attrs : List (Attr V)) :
    Out (Message B × Option E) :=
  match m.header with
  | none => .panic
  | some h =>
    match (if ser.isEmpty h.custom then .ok (some fun _ => none) else ser.decode h.custom) with
    | .error e => .ret (m, some e)
    | .ok data =>
      match assignAll data attrs with
      | none => .panic
      | some data => fieldsMap ser m data

/-- Record the error, if any, in the wrapper. (router/msg/msg_custom_map.go:10-73) -/
def setErr (w : Wrapper B E) : Option E → Wrapper B E
  | none => w
  | some e => { w with err := some e }

/-- router/msg/msg_custom_map.go:10-32. -/
def withReqCustomFields (ser : Serializer B V E) (w : Wrapper B E) (attrs : List (Attr V)) :
    Out (Wrapper B E) :=
  match fields ser w.req attrs with
  | .panic => .panic
  | .ret (m, e) => .ret (setErr { w with req := m } e)

/-- router/msg/msg_custom_map.go:34-44. -/
def withReqCustomFieldsMap (ser : Serializer B V E) (w : Wrapper B E) (data : GoMap V) :
    Out (Wrapper B E) :=
  match fieldsMap ser w.req data with
  | .panic => .panic
  | .ret (m, e) => .ret (setErr { w with req := m } e)

/-- router/msg/msg_custom_map.go:46-61. -/
def withResCustomFields (ser : Serializer B V E) (w : Wrapper B E) (attrs : List (Attr V)) :
    Out (Wrapper B E) :=
  match fields ser w.res attrs with
  | .panic => .panic
  | .ret (m, e) => .ret (setErr { w with res := m } e)

/-- router/msg/msg_custom_map.go:63-73. -/
def withResCustomFieldsMap (ser : Serializer B V E) (w : Wrapper B E) (data : GoMap V) :
    Out (Wrapper B E) :=
  match fieldsMap ser w.res data with
  | .panic => .panic
  | .ret (m, e) => .ret (setErr { w with res := m } e)

/-- router/msg/msg_custom_map.go:79-86 `GetReqCustomMap` and 156-163 `GetResCustomMap` of a non-nil
header: `none` for an empty `Custom`. -/
def customMap (ser : Serializer B V E) (h : Header B) : Option (Except E (GoMap V)) :=
  if ser.isEmpty h.custom then none else some (ser.decode h.custom)

/-- router/msg/msg.go:85-102 `WithReqHeader`. -/
def withReqHeader (w : Wrapper B E) (h : Option (Header B)) : Wrapper B E :=
  match w.req.header, h with
  | some old, some h =>
    { w with req := { w.req with header := some { old with
        id := h.id, event := h.event, orgActorID := h.orgActorID, orgActorType := h.orgActorType,
        token := h.token, prevActorType := h.prevActorType, targetActorID := h.targetActorID,
        targetActorType := h.targetActorType, custom := h.custom } } }
  | _, _ => { w with req := { w.req with header := h } }

/-- router/msg/msg.go:110-113 `WithResHeader`. -/
def withResHeader (w : Wrapper B E) (h : Option (Header B)) : Wrapper B E :=
  { w with res := { w.res with header := h } }

/-! ### Typed getters -/

/-- The Go integer types; `int` and `uint` have 64 bits. (router/msg/msg_custom_map.go:88-150) -/
inductive IntTy
  | int | int8 | int16 | int32 | int64 | uint | uint8 | uint16 | uint32 | uint64
deriving DecidableEq

/-- The range of a type: from the first number, below the second one. (router/msg/msg_custom_map.go:88-150) -/
def IntTy.range : IntTy → Int × Int
  | .int => (-2 ^ 63, 2 ^ 63)
  | .int8 => (-2 ^ 7, 2 ^ 7)
  | .int16 => (-2 ^ 15, 2 ^ 15)
  | .int32 => (-2 ^ 31, 2 ^ 31)
  | .int64 => (-2 ^ 63, 2 ^ 63)
  | .uint => (0, 2 ^ 64)
  | .uint8 => (0, 2 ^ 8)
  | .uint16 => (0, 2 ^ 16)
  | .uint32 => (0, 2 ^ 32)
  | .uint64 => (0, 2 ^ 64)

/-- The float64 nearest to the natural number `a` (ties to even), as `strconv.ParseFloat` computes it
for a JSON number; `a` below 2^1023, so that the result is finite, and it is an integer.
(router/msg/map_custom_serialize.go:17-23) -/
def roundNat (a : Nat) : Nat :=
  if a < 2 ^ 53 then a
  else
    let u := 2 ^ (a.log2 - 52) -- the unit in the last place
    if 2 * (a % u) < u ∨ (2 * (a % u) = u ∧ (a / u) % 2 = 0) then a / u * u else (a / u + 1) * u

/-- The float64 nearest to an integer. (router/msg/map_custom_serialize.go:17-23) -/
def roundF64 (n : Int) : Int := if 0 ≤ n then roundNat n.toNat else -(roundNat (-n).toNat)

/-- Go conversion of a float64 (here an integer) to an integer type; out of range the result is
implementation-defined: the parameter `ovf`. (router/msg/msg_custom_map.go:88-150) -/
def convert (ovf : IntTy → Int → Int) (t : IntTy) (f : Int) : Int :=
  if t.range.1 ≤ f ∧ f < t.range.2 then f else ovf t f

/-- A value of a custom map: a Go integer, a float64 with an integer value, or anything else.
(router/msg/msg_custom_map.go:88-150) -/
inductive Val (X : Type)
  | goInt (t : IntTy) (n : Int)
  | f64 (f : Int)
  | other (x : X)

/-- What `encoding/json` makes of a value written as JSON and decoded to `any`: a number becomes a
float64. (router/msg/map_custom_serialize.go:14-24) -/
def jsonNorm {X : Type} : Val X → Val X
  | .goInt _ n => .f64 (roundF64 n)
  | v => v

/-- router/msg/msg_custom_map.go:109-149 and 185-225: the switch on the type of the zero value, on a
float64. There is no case for `int8` and `uint8`, which give the zero value (L149, L225). -/
def switchF64 (ovf : IntTy → Int → Int) (t : IntTy) (f : Int) : Int :=
  match t with
  | .int => convert ovf .int f
  | .uint => convert ovf .uint f
  | .int16 => convert ovf .int16 f
  | .uint16 => convert ovf .uint16 f
  | .int32 => convert ovf .int32 f
  | .uint32 => convert ovf .uint32 f
  | .int64 => convert ovf .int64 f
  | .uint64 => convert ovf .uint64 f
  | .int8 => 0
  | .uint8 => 0

/-- router/msg/msg_custom_map.go:88-150 `GetReqCustomField[T]` and 165-226 `GetResCustomField[T]`, for an
integer type `T`, on the request or response `m`. -/
def getIntField {X : Type} (ser : Serializer B (Val X) E) (ovf : IntTy → Int → Int) (m : Message B)
    (key : String) (t : IntTy) : Out Int :=
  match m.header with
  | none => .panic
  | some h =>
    match customMap ser h with
    | none => .ret 0
    | some (.error _) => .ret 0
    | some (.ok data) =>
      match data.get key with
      | none => .ret 0
      | some (.goInt t' n) => if t' = t then .ret n else .ret 0
      | some (.f64 f) => .ret (switchF64 ovf t f)
      | some (.other _) => .ret 0

/-- router/msg/msg_custom_map.go:88-150. -/
def getReqIntField {X : Type} (ser : Serializer B (Val X) E) (ovf : IntTy → Int → Int)
    (w : Wrapper B E) (key : String) (t : IntTy) : Out Int := getIntField ser ovf w.req key t

/-- router/msg/msg_custom_map.go:165-226. -/
def getResIntField {X : Type} (ser : Serializer B (Val X) E) (ovf : IntTy → Int → Int)
    (w : Wrapper B E) (key : String) (t : IntTy) : Out Int := getIntField ser ovf w.res key t

end Braid.Msg
