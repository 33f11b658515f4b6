import Verif.Wire.Model

/-
What the wire format is, written down independently of the code: the protocol buffers encoding.
-/
namespace Braid.Wire.Spec

/-- Base-128 varint, least significant group first. -/
def varint (n : Nat) : Bytes :=
  if n < 128 then [UInt8.ofNat n] else UInt8.ofNat (n % 128 + 128) :: varint (n / 128)
termination_by n
decreasing_by omega

/-- A length-delimited field. -/
def lenField (num : Nat) (s : Bytes) : Bytes := varint (num * 8 + 2) ++ varint s.length ++ s

/-- A varint field. -/
def varintField (num : Nat) (v : Nat) : Bytes := varint (num * 8) ++ varint v

/-- proto3: a string or bytes field is left out when empty. -/
def optLen (num : Nat) (s : Bytes) : Bytes := if s = [] then [] else lenField num s

/-- An int64 as the unsigned number with the same 64 bits. -/
def twos (t : Int64) : Nat := if 0 ≤ t.toInt then t.toInt.toNat else (t.toInt + 2 ^ 64).toNat

/-- The encoding of a header: its fields in the order of their numbers (router.proto). -/
def header (h : Header) : Bytes :=
  optLen 1 h.id ++ optLen 2 h.orgActorID ++ optLen 3 h.orgActorType ++ optLen 4 h.prevActorType ++
  optLen 7 h.targetActorID ++ optLen 8 h.targetActorType ++ optLen 9 h.event ++ optLen 10 h.token ++
  (if h.timestamp = 0 then [] else varintField 11 (twos h.timestamp)) ++ optLen 12 h.custom

/-- The encoding of a message; a present header is written even when it is empty. -/
def message (m : Message) : Bytes :=
  (match m.header with
   | some h => lenField 1 (header h)
   | none => []) ++ optLen 2 m.body

def routeReq (m : RouteReq) : Bytes :=
  match m.msg with
  | some x => lenField 1 (message x)
  | none => []

def routeRes (m : RouteRes) : Bytes :=
  match m.msg with
  | some x => lenField 2 (message x)
  | none => []

/-- A well-formed field of the wire format with number `num`, of any wire type, groups included. -/
inductive Field
  | varint (num : Nat) (v : Nat)
  | fixed64 (num : Nat) (s : Bytes)
  | len (num : Nat) (s : Bytes)
  | group (num : Nat) (fs : List Field)
  | fixed32 (num : Nat) (s : Bytes)

def Field.num : Field → Nat
  | .varint n _ => n
  | .fixed64 n _ => n
  | .len n _ => n
  | .group n _ => n
  | .fixed32 n _ => n

mutual
/-- The bytes of a field. -/
def Field.enc : Field → Bytes
  | .varint n v => Spec.varint (n * 8) ++ Spec.varint v
  | .fixed64 n s => Spec.varint (n * 8 + 1) ++ s
  | .len n s => Spec.varint (n * 8 + 2) ++ Spec.varint s.length ++ s
  | .group n fs => Spec.varint (n * 8 + 3) ++ encs fs ++ Spec.varint (n * 8 + 4)
  | .fixed32 n s => Spec.varint (n * 8 + 5) ++ s
/-- The bytes of a sequence of fields. -/
def encs : List Field → Bytes
  | [] => []
  | f :: fs => f.enc ++ encs fs
end

mutual
/-- Field numbers from 1 to 2^29 - 1, varints of 64 bits, fixed sizes. -/
def Field.Ok : Field → Prop
  | .varint n v => 0 < n ∧ n < 2 ^ 29 ∧ v < 2 ^ 64
  | .fixed64 n s => 0 < n ∧ n < 2 ^ 29 ∧ s.length = 8
  | .len n _ => 0 < n ∧ n < 2 ^ 29
  | .group n fs => 0 < n ∧ n < 2 ^ 29 ∧ Oks fs
  | .fixed32 n s => 0 < n ∧ n < 2 ^ 29 ∧ s.length = 4
def Oks : List Field → Prop
  | [] => True
  | f :: fs => f.Ok ∧ Oks fs
end

/-- The field numbers of `Header`. -/
def headerNums : List Nat := [1, 2, 3, 4, 7, 8, 9, 10, 11, 12]

/-- What one field does to a header: known fields of the right wire type assign, unknown fields
do nothing; `none` is a field with a known number and the wrong wire type (rejected). -/
def apply (h : Header) : Field → Option Header
  | .len 1 s => some { h with id := s }
  | .len 2 s => some { h with orgActorID := s }
  | .len 3 s => some { h with orgActorType := s }
  | .len 4 s => some { h with prevActorType := s }
  | .len 7 s => some { h with targetActorID := s }
  | .len 8 s => some { h with targetActorType := s }
  | .len 9 s => some { h with event := s }
  | .len 10 s => some { h with token := s }
  | .varint 11 v => some { h with timestamp := Int64.ofInt v }
  | .len 12 s => some { h with custom := s }
  | f => if f.num ∈ headerNums then none else some h

/-- What a sequence of fields does, from left to right. -/
def applyAll (h : Header) : List Field → Option Header
  | [] => some h
  | f :: fs => (apply h f).bind fun h => applyAll h fs

/-- `h` holds the value that the field `f` carries. -/
def Holds (h : Header) : Field → Prop
  | .len 1 s => h.id = s
  | .len 2 s => h.orgActorID = s
  | .len 3 s => h.orgActorType = s
  | .len 4 s => h.prevActorType = s
  | .len 7 s => h.targetActorID = s
  | .len 8 s => h.targetActorType = s
  | .len 9 s => h.event = s
  | .len 10 s => h.token = s
  | .varint 11 v => h.timestamp = Int64.ofInt v
  | .len 12 s => h.custom = s
  | _ => True

/-- A field of a `Message`: a header made of header fields, a body, or any other field: an unknown one, or one with a known number
and the wrong wire type. -/
inductive MsgField
  | header (fs : List Field)
  | body (s : Bytes)
  | other (f : Field)

def MsgField.field : MsgField → Field
  | .header fs => .len 1 (encs fs)
  | .body s => .len 2 s
  | .other f => f

def MsgField.Ok : MsgField → Prop
  | .header fs => Oks fs
  | .body _ => True
  | .other f => f.Ok ∧ ∀ s, f ≠ .len 1 s ∧ f ≠ .len 2 s

def encMsg : List MsgField → Bytes
  | [] => []
  | x :: xs => x.field.enc ++ encMsg xs

/-- What a field does to a message: an embedded header is merged into the one already there. -/
def applyMsg (m : Message) : MsgField → Option Message
  | .header fs => (applyAll (m.header.getD {}) fs).map fun h => { m with header := some h }
  | .body s => some { m with body := s }
  | .other f => if f.num = 1 ∨ f.num = 2 then none else some m

def applyMsgAll (m : Message) : List MsgField → Option Message
  | [] => some m
  | x :: xs => (applyMsg m x).bind fun m => applyMsgAll m xs

/-- A field of a `RouteReq` or `RouteRes`, whose one field is a message: that one, or any other field. -/
inductive RouteField
  | msg (xs : List MsgField)
  | other (f : Field)

/-- As a field, where `k` is the number of the message. -/
def RouteField.field (k : Nat) : RouteField → Field
  | .msg xs => .len k (encMsg xs)
  | .other f => f

def RouteField.Ok (k : Nat) : RouteField → Prop
  | .msg xs => ∀ x ∈ xs, x.Ok
  | .other f => f.Ok ∧ ∀ s, f ≠ .len k s

def encRoute (k : Nat) : List RouteField → Bytes
  | [] => []
  | x :: xs => (x.field k).enc ++ encRoute k xs

/-- What a field does to the message of a request or response: an embedded message is merged into the one already there. -/
def applyRoute (k : Nat) (m : Option Message) : RouteField → Option (Option Message)
  | .msg xs => (applyMsgAll (m.getD {}) xs).map some
  | .other f => if f.num = k then none else some m

def applyRouteAll (k : Nat) (m : Option Message) : List RouteField → Option (Option Message)
  | [] => some m
  | x :: xs => (applyRoute k m x).bind fun m => applyRouteAll k m xs

end Braid.Wire.Spec
