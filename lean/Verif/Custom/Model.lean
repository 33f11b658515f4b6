/-
Model of `router/msg/msg_utils.go` `isJSONSerializable` beside what `encoding/json` (go 1.22) can encode, and of
`router/msg/map_custom_object.go`.

Simplifications: Go values are finite trees, so that values that contain themselves are left out. Types other than
those named in `isJSONSerializable` are slices of any element type, or something else.
-/
namespace Braid.Custom

/-- A value in an `interface{}`. (router/msg/msg_utils.go:15-57) -/
inductive GoVal
  | null
  /-- `string`, `bool` and the integer types -/
  | plain
  /-- `float32`, `float64`; `fin`: neither infinite nor NaN -/
  | float (fin : Bool)
  /-- `time.Time`; `year`: its year is in [0, 9999] -/
  | time (year : Bool)
  /-- a type with `MarshalJSON`; `ok`: it returns valid JSON and no error -/
  | marshaler (ok : Bool)
  /-- `[]interface{}` -/
  | slice (vs : List GoVal)
  /-- `map[string]interface{}` -/
  | map (kvs : List (String × GoVal))
  /-- a slice of another type, with the elements in interfaces -/
  | typed (vs : List GoVal)
  /-- any other type; `ok`: `encoding/json` can encode it, such as most structs, unlike functions and channels -/
  | other (ok : Bool)

mutual
/-- `msg_utils.go` L15-57 `isJSONSerializable`: accepted? (router/msg/msg_utils.go:15-57) -/
def accepts : GoVal → Bool
  | .null => true
  | .plain => true
  | .float _ => true
  | .time _ => true
  | .marshaler _ => true
  | .slice vs => acceptsAll vs
  | .map kvs => acceptsMap kvs
  | .typed vs => acceptsAll vs
  | .other _ => false
/-- L28-33, L46-50 (router/msg/msg_utils.go:28-50) -/
def acceptsAll : List GoVal → Bool
  | [] => true
  | v :: vs => accepts v && acceptsAll vs
/-- L36-41 (router/msg/msg_utils.go:36-41) -/
def acceptsMap : List (String × GoVal) → Bool
  | [] => true
  | (_, v) :: kvs => accepts v && acceptsMap kvs
end

mutual
/-- `json.Marshal` returns no error. (router/msg/map_custom_serialize.go:32-34) -/
def encodable : GoVal → Bool
  | .null => true
  | .plain => true
  | .float fin => fin
  | .time year => year
  | .marshaler ok => ok
  | .slice vs => encodableAll vs
  | .map kvs => encodableMap kvs
  | .typed vs => encodableAll vs
  | .other ok => ok
/-- The same for the elements of a slice. (router/msg/map_custom_serialize.go:32-34) -/
def encodableAll : List GoVal → Bool
  | [] => true
  | v :: vs => encodable v && encodableAll vs
/-- The same for the values of a map. (router/msg/map_custom_serialize.go:32-34) -/
def encodableMap : List (String × GoVal) → Bool
  | [] => true
  | (_, v) :: kvs => encodable v && encodableMap kvs
end

/-- `map_custom_serialize.go` L9-12: bytes and maybe an error; and decoding.
(router/msg/map_custom_serialize.go:9-12) -/
structure Serializer (V : Type) where
  encode : V → List UInt8 × Option Nat
  decode : List UInt8 → Option V

/-- The parts of a `Wrapper` used here: `Header.Custom` of the request and of the response, and `Err`.
(router/msg/msg.go:20-28) -/
structure Wrapper where
  req : List UInt8
  res : List UInt8
  err : Option Nat
deriving DecidableEq

/-- `map_custom_object.go` L5-15. (router/msg/map_custom_object.go:5-15) -/
def withReqCustomObject {V : Type} (ser : Serializer V) (w : Wrapper) (v : V) : Wrapper :=
  { w with
    err := (ser.encode v).2.or w.err
    req := (ser.encode v).1 }

/-- `map_custom_object.go` L17-26. (router/msg/map_custom_object.go:17-26) -/
def withResCustomObject {V : Type} (ser : Serializer V) (w : Wrapper) (v : V) : Wrapper :=
  { w with
    err := (ser.encode v).2.or w.err
    res := (ser.encode v).1 }

/-- `map_custom_object.go` L28-35: `none` is an error. (router/msg/map_custom_object.go:28-35) -/
def getReqCustomObject {V : Type} (ser : Serializer V) (w : Wrapper) : Option V :=
  if w.req.length = 0 then none else ser.decode w.req

/-- `map_custom_object.go` L37-44. (router/msg/map_custom_object.go:37-44) -/
def getResCustomObject {V : Type} (ser : Serializer V) (w : Wrapper) : Option V :=
  if w.res.length = 0 then none else ser.decode w.res

end Braid.Custom
