/-
Model of `router/router.pb.go`: encoding and decoding of the wire format, byte by byte.

Byte slices and strings are lists of bytes; nil and empty slices are identified (for `Custom` and
`Body`; `Header` and `Msg` pointers are options). `uint64` values are natural numbers with explicit
reduction modulo 2^64; `int` and `int64` values are integers with explicit wrap-around where an
addition could overflow. An index or slice expression out of range is the outcome `panic`.
Loops whose progress is not syntactically evident take an iteration budget; running out of it is the
outcome `fuel` (theorem C46 shows that this never happens).
-/
namespace Braid.Wire

/-- Encoded messages. (router/router.pb.go:400-601) -/
abbrev Bytes := List UInt8

/-- The errors returned by the decoders (router/router.pb.go:1441-1445 and the `fmt.Errorf` calls). -/
inductive Err
  | overflow | eof | endGroup | illegalTag | wrongWire | invalidLength | unexpectedEndGroup
  | illegalWire
deriving DecidableEq, Repr

/-- What `Unmarshal` does. (router/router.pb.go:711-1361) -/
inductive Res (α : Type)
  | ok (a : α)
  | err (e : Err)
  | panic
  | fuel
deriving DecidableEq, Repr

/-- Sequencing: stop at the first error or panic. (router/router.pb.go:711-1361) -/
def Res.bind {α β : Type} : Res α → (α → Res β) → Res β
  | .ok a, f => f a
  | .err e, _ => .err e
  | .panic, _ => .panic
  | .fuel, _ => .fuel

/-- Go conversion `int(x)` of a `uint64`. (router/router.pb.go:711-1361) -/
def toInt64 (x : Nat) : Int := if x < 2 ^ 63 then (x : Int) else (x : Int) - 2 ^ 64

/-- Go conversion `int32(x)` of a `uint64`. (router/router.pb.go:711-1361) -/
def toInt32 (x : Nat) : Int :=
  if x % 2 ^ 32 < 2 ^ 31 then ((x % 2 ^ 32 : Nat) : Int) else ((x % 2 ^ 32 : Nat) : Int) - 2 ^ 32

/-- Wrap-around of `int` arithmetic. (router/router.pb.go:711-1361) -/
def wrapInt (x : Int) : Int := (x + 2 ^ 63) % 2 ^ 64 - 2 ^ 63

/-- `d[i]`. (router/router.pb.go:711-1361) -/
def idx (d : Bytes) (i : Int) : Res UInt8 :=
  if 0 ≤ i then
    match d[i.toNat]? with
    | some b => .ok b
    | none => .panic
  else .panic

/-- `d[i:j]`. (router/router.pb.go:711-1361) -/
def slice (d : Bytes) (i j : Int) : Res Bytes :=
  if 0 ≤ i ∧ i ≤ j ∧ j ≤ d.length then .ok ((d.take j.toNat).drop i.toNat) else .panic

/-- router/router.pb.go:29-40 `type Header struct`. -/
structure Header where
  id : Bytes := []
  orgActorID : Bytes := []
  orgActorType : Bytes := []
  prevActorType : Bytes := []
  targetActorID : Bytes := []
  targetActorType : Bytes := []
  event : Bytes := []
  token : Bytes := []
  timestamp : Int64 := 0
  custom : Bytes := []
deriving DecidableEq, Repr

/-- router/router.pb.go:145-148 `type Message struct`. -/
structure Message where
  header : Option Header := none
  body : Bytes := []
deriving DecidableEq, Repr

/-- router/router.pb.go `type RouteReq struct` (one field `Msg`). (router/router.pb.go:197-199) -/
structure RouteReq where
  msg : Option Message := none
deriving DecidableEq, Repr

/-- router/router.pb.go `type RouteRes struct` (one field `Msg`). (router/router.pb.go:241-243) -/
structure RouteRes where
  msg : Option Message := none
deriving DecidableEq, Repr

/-! ### Size -/

/-- `math/bits.Len64`: the minimum number of bits required to represent `x`. (router/router.pb.go:614-707) -/
def len64 (x : Nat) : Nat := if x = 0 then 0 else Nat.log2 x + 1

/-- router/router.pb.go:705-707 `sovRouter`. -/
def sov (x : Nat) : Nat := (len64 (x ||| 1) + 6) / 7

/-- router/router.pb.go:620-623 and the like: the size of a string or bytes field. -/
def sizeBytes (s : Bytes) : Nat := if s.length > 0 then 1 + s.length + sov s.length else 0

/-- `uint64(t)` of an `int64`. (router/router.pb.go:603-707) -/
def u64 (t : Int64) : Nat := t.toUInt64.toNat

/-- router/router.pb.go:614-660 `Header.Size` (of a non-nil header). -/
def sizeHeader (h : Header) : Nat :=
  sizeBytes h.id + sizeBytes h.orgActorID + sizeBytes h.orgActorType + sizeBytes h.prevActorType
    + sizeBytes h.targetActorID + sizeBytes h.targetActorType + sizeBytes h.event
    + sizeBytes h.token
    + (if h.timestamp ≠ 0 then 1 + sov (u64 h.timestamp) else 0)
    + sizeBytes h.custom

/-- router/router.pb.go:662-677 `Message.Size`. -/
def sizeMessage (m : Message) : Nat :=
  (match m.header with
   | some h => 1 + sizeHeader h + sov (sizeHeader h)
   | none => 0) + sizeBytes m.body

/-- router/router.pb.go:679-690 and 692-703 `RouteReq.Size`, `RouteRes.Size`. -/
def sizeRoute (m : Option Message) : Nat :=
  match m with
  | some x => 1 + sizeMessage x + sov (sizeMessage x)
  | none => 0

/-! ### Encoding -/

/-- `copy(d[i:], src)`. (router/router.pb.go:415-601) -/
def copyAt (d : Bytes) (i : Int) (src : Bytes) : Res Bytes :=
  if 0 ≤ i ∧ i ≤ d.length then
    .ok (d.take i.toNat ++ src.take (d.length - i.toNat) ++ d.drop (i.toNat + src.length))
  else .panic

/-- `d[i] = b`. (router/router.pb.go:603-613) -/
def setAt (d : Bytes) (i : Int) (b : UInt8) : Res Bytes :=
  if 0 ≤ i ∧ i < d.length then .ok (d.set i.toNat b) else .panic

/-- router/router.pb.go:606-611, the loop of `encodeVarintRouter`. -/
def encodeVarintLoop (d : Bytes) (offset : Int) (v : Nat) : Res Bytes :=
  if v ≥ 1 <<< 7 then
    (setAt d offset (UInt8.ofNat (v &&& 0x7f ||| 0x80))).bind fun d =>
      encodeVarintLoop d (offset + 1) (v >>> 7)
  else setAt d offset (UInt8.ofNat v)
termination_by v
decreasing_by
  simp only [Nat.shiftRight_eq_div_pow]
  exact Nat.div_lt_self (by simp at *; omega) (by decide)

/-- router/router.pb.go:603-613 `encodeVarintRouter`. -/
def encodeVarint (d : Bytes) (offset : Int) (v : Nat) : Res (Bytes × Int) :=
  (encodeVarintLoop d (offset - sov v) v).bind fun d => .ok (d, offset - sov v)

/-- `i--; dAtA[i] = tag`. (router/router.pb.go:415-601) -/
def putTag (d : Bytes) (i : Int) (tag : UInt8) : Res (Bytes × Int) :=
  (setAt d (i - 1) tag).bind fun d => .ok (d, i - 1)

/-- router/router.pb.go:420-426 and the like: `if len(s) > 0 { i -= len(s); copy(dAtA[i:], s);
i = encodeVarintRouter(...); i--; dAtA[i] = tag }`. -/
def putBytes (tag : UInt8) (s : Bytes) (w : Bytes × Int) : Res (Bytes × Int) :=
  if s.length > 0 then
    (copyAt w.1 (w.2 - s.length) s).bind fun d =>
      (encodeVarint d (w.2 - s.length) s.length).bind fun w => putTag w.1 w.2 tag
  else .ok w

/-- router/router.pb.go:427-431: the timestamp. -/
def putInt64 (tag : UInt8) (t : Int64) (w : Bytes × Int) : Res (Bytes × Int) :=
  if t ≠ 0 then (encodeVarint w.1 w.2 (u64 t)).bind fun w => putTag w.1 w.2 tag
  else .ok w

/-- router/router.pb.go:415-489 `Header.MarshalToSizedBuffer`: the buffer afterwards and the number of
bytes written. -/
def marshalHeaderTo (h : Header) (d : Bytes) : Res (Bytes × Int) :=
  (putBytes 0x62 h.custom (d, d.length)).bind fun w =>
  (putInt64 0x58 h.timestamp w).bind fun w =>
  (putBytes 0x52 h.token w).bind fun w =>
  (putBytes 0x4a h.event w).bind fun w =>
  (putBytes 0x42 h.targetActorType w).bind fun w =>
  (putBytes 0x3a h.targetActorID w).bind fun w =>
  (putBytes 0x22 h.prevActorType w).bind fun w =>
  (putBytes 0x1a h.orgActorType w).bind fun w =>
  (putBytes 0x12 h.orgActorID w).bind fun w =>
  (putBytes 0x0a h.id w).bind fun w =>
  .ok (w.1, d.length - w.2)

/-- router/router.pb.go:519-528 and the like: marshal a nested message with `f` into `dAtA[:i]`, then
its length and its tag. -/
def putNested (f : Bytes → Res (Bytes × Int)) (tag : UInt8) (w : Bytes × Int) : Res (Bytes × Int) :=
  (slice w.1 0 w.2).bind fun sub =>
  (f sub).bind fun r =>
  let d := r.1 ++ w.1.drop w.2.toNat -- `dAtA[:i]` shares the memory of `dAtA`
  (encodeVarint d (w.2 - r.2) r.2.toNat).bind fun w => putTag w.1 w.2 tag

/-- router/router.pb.go:506-531 `Message.MarshalToSizedBuffer`. -/
def marshalMessageTo (m : Message) (d : Bytes) : Res (Bytes × Int) :=
  (putBytes 0x12 m.body (d, d.length)).bind fun w =>
  (match m.header with
   | some h => putNested (marshalHeaderTo h) 0x0a w
   | none => .ok w).bind fun w =>
  .ok (w.1, d.length - w.2)

/-- router/router.pb.go:548-566 `RouteReq.MarshalToSizedBuffer` (tag 0x0a) and 583-601
`RouteRes.MarshalToSizedBuffer` (tag 0x12). -/
def marshalRouteTo (tag : UInt8) (m : Option Message) (d : Bytes) : Res (Bytes × Int) :=
  (match m with
   | some x => putNested (marshalMessageTo x) tag (d, d.length)
   | none => .ok (d, d.length)).bind fun w =>
  .ok (w.1, d.length - w.2)

/-- router/router.pb.go:400-408 and the like: `Marshal`, given `Size` and `MarshalToSizedBuffer`. -/
def marshalWith (size : Nat) (f : Bytes → Res (Bytes × Int)) : Res Bytes :=
  (f (List.replicate size 0)).bind fun r => slice r.1 0 r.2

/-- router/router.pb.go:400-408 `Header.Marshal`. -/
def marshalHeader (h : Header) : Res Bytes := marshalWith (sizeHeader h) (marshalHeaderTo h)

/-- router/router.pb.go:491-499 `Message.Marshal`. -/
def marshalMessage (m : Message) : Res Bytes := marshalWith (sizeMessage m) (marshalMessageTo m)

/-- router/router.pb.go:533-541 `RouteReq.Marshal`. -/
def marshalRouteReq (m : RouteReq) : Res Bytes :=
  marshalWith (sizeRoute m.msg) (marshalRouteTo 0x0a m.msg)

/-- router/router.pb.go:568-576 `RouteRes.Marshal`. -/
def marshalRouteRes (m : RouteRes) : Res Bytes :=
  marshalWith (sizeRoute m.msg) (marshalRouteTo 0x12 m.msg)

/-! ### Decoding -/

/-- router/router.pb.go:717-730 and all its copies: the varint loop, from `shift` with the bits
`acc` collected so far; also the new `iNdEx`. -/
def varint (d : Bytes) (i : Int) (shift acc : Nat) : Res (Nat × Int) :=
  if shift ≥ 64 then .err .overflow
  else if i ≥ d.length then .err .eof
  else (idx d i).bind fun b =>
    if b.toNat < 0x80 then .ok (acc ||| ((b.toNat &&& 0x7f) <<< shift) % 2 ^ 64, i + 1)
    else varint d (i + 1) (shift + 7) (acc ||| ((b.toNat &&& 0x7f) <<< shift) % 2 ^ 64)
termination_by 64 - shift

/-- router/router.pb.go:744-771 and the like: read a length, check it and cut out that many bytes. -/
def bytesField (d : Bytes) (i : Int) : Res (Bytes × Int) :=
  (varint d i 0 0).bind fun (n, i) =>
  if toInt64 n < 0 then .err .invalidLength
  else if wrapInt (i + toInt64 n) < 0 then .err .invalidLength
  else if wrapInt (i + toInt64 n) > d.length then .err .eof
  else (slice d i (wrapInt (i + toInt64 n))).bind fun s => .ok (s, wrapInt (i + toInt64 n))

/-- router/router.pb.go:1385-1396: skip the bytes of a varint. -/
def skipVarint (d : Bytes) (i : Int) (shift : Nat) : Res Int :=
  if shift ≥ 64 then .err .overflow
  else if i ≥ d.length then .err .eof
  else (idx d i).bind fun b =>
    if b.toNat < 0x80 then .ok (i + 1) else skipVarint d (i + 1) (shift + 7)
termination_by 64 - shift

/-- router/router.pb.go:1382-1430: one round of `skipRouter` after the tag: the new `iNdEx` and
`depth`. -/
def skipOne (d : Bytes) (wireType : Nat) (i : Int) (depth : Nat) : Res (Int × Nat) :=
  match wireType with
  | 0 => (skipVarint d i 0).bind fun i => .ok (i, depth)
  | 1 => .ok (wrapInt (i + 8), depth)
  | 2 =>
    (varint d i 0 0).bind fun (n, i) =>
    if toInt64 n < 0 then .err .invalidLength
    else .ok (wrapInt (i + toInt64 n), depth)
  | 3 => .ok (i, depth + 1)
  | 4 => if depth = 0 then .err .unexpectedEndGroup else .ok (i, depth - 1)
  | 5 => .ok (wrapInt (i + 4), depth)
  | _ => .err .illegalWire

/-- router/router.pb.go:1366-1438: the loop of `skipRouter`. -/
def skipLoop (d : Bytes) : Nat → Int → Nat → Res Int
  | 0, _, _ => .fuel
  | n + 1, i, depth =>
    if i < d.length then
      (varint d i 0 0).bind fun (wire, i) =>
      (skipOne d (wire &&& 7) i depth).bind fun (i, depth) =>
      if i < 0 then .err .invalidLength
      else if depth = 0 then .ok i
      else skipLoop d n i depth
    else .err .eof

/-- router/router.pb.go:1362-1439 `skipRouter`. -/
def skipRouter (d : Bytes) : Res Int := skipLoop d (d.length + 1) 0 0

/-- router/router.pb.go:712-1068, the loop common to the four `Unmarshal` methods. `field m num wt i`
is the `switch fieldNum` statement: `none` for the default case, otherwise the outcome with the
changed message and the new `iNdEx`. -/
def unmarshalLoop {M : Type} (field : M → Int → Nat → Int → Option (Res (M × Int))) (d : Bytes) :
    Nat → Int → M → Res M
  | 0, _, _ => .fuel
  | n + 1, i, m =>
    if i < d.length then
      (varint d i 0 0).bind fun (wire, i1) =>
      if wire &&& 7 = 4 then .err .endGroup
      else if toInt32 (wire >>> 3) ≤ 0 then .err .illegalTag
      else
        match field m (toInt32 (wire >>> 3)) (wire &&& 7) i1 with
        | some r => r.bind fun (m, i) => unmarshalLoop field d n i m
        | none => -- L1049-1061
          (slice d i d.length).bind fun sub =>
          (skipRouter sub).bind fun sk =>
          if sk < 0 ∨ wrapInt (i + sk) < 0 then .err .invalidLength
          else if wrapInt (i + sk) > d.length then .err .eof
          else unmarshalLoop field d n (wrapInt (i + sk)) m
    else if i > d.length then .err .eof
    else .ok m

/-- A length-delimited field: `if wireType != 2 { return error }`, then the bytes. (router/router.pb.go:711-1361) -/
def takeBytes {M : Type} (d : Bytes) (wt : Nat) (i : Int) (set : Bytes → M) : Res (M × Int) :=
  if wt ≠ 2 then .err .wrongWire
  else (bytesField d i).bind fun (s, i) => .ok (set s, i)

/-- router/router.pb.go:739-1049: the switch of `Header.Unmarshal`. -/
def headerField (d : Bytes) (m : Header) (num : Int) (wt : Nat) (i : Int) :
    Option (Res (Header × Int)) :=
  if num = 1 then some (takeBytes d wt i fun s => { m with id := s })
  else if num = 2 then some (takeBytes d wt i fun s => { m with orgActorID := s })
  else if num = 3 then some (takeBytes d wt i fun s => { m with orgActorType := s })
  else if num = 4 then some (takeBytes d wt i fun s => { m with prevActorType := s })
  else if num = 7 then some (takeBytes d wt i fun s => { m with targetActorID := s })
  else if num = 8 then some (takeBytes d wt i fun s => { m with targetActorType := s })
  else if num = 9 then some (takeBytes d wt i fun s => { m with event := s })
  else if num = 10 then some (takeBytes d wt i fun s => { m with token := s })
  else if num = 11 then -- L996-1014
    some (if wt ≠ 0 then .err .wrongWire
      else (varint d i 0 0).bind fun (v, i) =>
        .ok ({ m with timestamp := (UInt64.ofNat v).toInt64 }, i))
  else if num = 12 then some (takeBytes d wt i fun s => { m with custom := s })
  else none

/-- router/router.pb.go:711-1069 `Header.Unmarshal` into `m`. -/
def unmarshalHeader (m : Header) (d : Bytes) : Res Header :=
  unmarshalLoop (headerField d) d (d.length + 1) 0 m

/-- A nested message: its bytes are decoded into the existing one, or into an empty one
(router/router.pb.go:1103-1134). -/
def takeNested {N M : Type} (dec : N → Bytes → Res N) (d : Bytes) (wt : Nat) (i : Int)
    (old : N) (set : N → M) : Res (M × Int) :=
  if wt ≠ 2 then .err .wrongWire
  else (bytesField d i).bind fun (s, i) => (dec old s).bind fun x => .ok (set x, i)

/-- router/router.pb.go:1098-1182: the switch of `Message.Unmarshal`. -/
def messageField (d : Bytes) (m : Message) (num : Int) (wt : Nat) (i : Int) :
    Option (Res (Message × Int)) :=
  if num = 1 then
    some (takeNested unmarshalHeader d wt i (m.header.getD {}) fun h => { m with header := some h })
  else if num = 2 then some (takeBytes d wt i fun s => { m with body := s })
  else none

/-- router/router.pb.go:1070-1189 `Message.Unmarshal` into `m`. -/
def unmarshalMessage (m : Message) (d : Bytes) : Res Message :=
  unmarshalLoop (messageField d) d (d.length + 1) 0 m

/-- router/router.pb.go:1218-1268: the switch of `RouteReq.Unmarshal`. -/
def routeReqField (d : Bytes) (m : RouteReq) (num : Int) (wt : Nat) (i : Int) :
    Option (Res (RouteReq × Int)) :=
  if num = 1 then
    some (takeNested unmarshalMessage d wt i (m.msg.getD {}) fun x => { m with msg := some x })
  else none

/-- router/router.pb.go:1190-1275 `RouteReq.Unmarshal` into `m`. -/
def unmarshalRouteReq (m : RouteReq) (d : Bytes) : Res RouteReq :=
  unmarshalLoop (routeReqField d) d (d.length + 1) 0 m

/-- router/router.pb.go:1304-1354: the switch of `RouteRes.Unmarshal`. -/
def routeResField (d : Bytes) (m : RouteRes) (num : Int) (wt : Nat) (i : Int) :
    Option (Res (RouteRes × Int)) :=
  if num = 2 then
    some (takeNested unmarshalMessage d wt i (m.msg.getD {}) fun x => { m with msg := some x })
  else none

/-- router/router.pb.go:1276-1361 `RouteRes.Unmarshal` into `m`. -/
def unmarshalRouteRes (m : RouteRes) (d : Bytes) : Res RouteRes :=
  unmarshalLoop (routeResField d) d (d.length + 1) 0 m

end Braid.Wire
