import Verif.Custom.Model

/-
What the JSON check and the custom objects should do (C86, C87).
-/
namespace Braid.Custom

/-- `u` occurs in `v`, at any depth. -/
inductive Occurs (u : GoVal) : GoVal → Prop
  | refl : Occurs u u
  | slice {v vs} : v ∈ vs → Occurs u v → Occurs u (.slice vs)
  | map {k v kvs} : (k, v) ∈ kvs → Occurs u v → Occurs u (.map kvs)
  | typed {v vs} : v ∈ vs → Occurs u v → Occurs u (.typed vs)

/-- A leaf that `encoding/json` refuses although its type is fine: an infinite number or NaN, a time out of range, a
`MarshalJSON` that fails. -/
def Bad (u : GoVal) : Prop := u = .float false ∨ u = .time false ∨ u = .marshaler false

/-- **C86**. -/
def Sound : Prop := ∀ v, accepts v = true → encodable v = true

/-- A serializer that gives back what was encoded. -/
def RoundTrip {V : Type} (ser : Serializer V) : Prop :=
  ∀ v b, ser.encode v = (b, none) → ser.decode b = some v

/-- **C87**: the object comes back; if it cannot be encoded an error is recorded and nothing else changes. -/
def ReqObject {V : Type} (ser : Serializer V) (w : Wrapper) (v : V) : Prop :=
  ((ser.encode v).2 = none → getReqCustomObject ser (withReqCustomObject ser w v) = some v ∧
    (withReqCustomObject ser w v).err = w.err ∧ (withReqCustomObject ser w v).res = w.res) ∧
  ∀ e, (ser.encode v).2 = some e → withReqCustomObject ser w v = { w with err := some e }

/-- **C87**, the response. -/
def ResObject {V : Type} (ser : Serializer V) (w : Wrapper) (v : V) : Prop :=
  ((ser.encode v).2 = none → getResCustomObject ser (withResCustomObject ser w v) = some v ∧
    (withResCustomObject ser w v).err = w.err ∧ (withResCustomObject ser w v).req = w.req) ∧
  ∀ e, (ser.encode v).2 = some e → withResCustomObject ser w v = { w with err := some e }

end Braid.Custom
