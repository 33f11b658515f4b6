/-
Model of tokens: `lib/token/token.go`, with what it uses of github.com/golang-jwt/jwt v3.2.2 (`NewWithClaims`,
`SignedString`, `ParseWithClaims`).

Strings are lists of bytes. The functions of the libraries are the fields of `Lib`: base64, the JSON form of the
header and of the claims, and the MACs. Simplified: the header is only its `alg`; the methods that take another kind
of key than `[]byte` (RS, ES, PS and none) always fail and are represented by `other`.
-/
namespace Braid.Token

/-- Strings. (lib/token/token.go:13-58) -/
abbrev Bytes := List UInt8

/-- The algorithm in the header of a token. (lib/token/token.go:30-58) -/
inductive Alg
  | hs256
  | hs384
  | hs512
  | other
deriving DecidableEq

/-- The libraries. (lib/token/token.go:25-58) -/
structure Lib where
  /-- `EncodeSegment`: base64url without padding -/
  b64 : Bytes → Bytes
  /-- `DecodeSegment` -/
  unb64 : Bytes → Option Bytes
  /-- `json.Marshal` of the header, by its `alg` -/
  header : Alg → Bytes
  /-- decoding of a header; `none`: not JSON, no `alg`, or one that is not registered -/
  unheader : Bytes → Option Alg
  /-- `json.Marshal` of `Claims`, by the EntityID -/
  claims : Bytes → Bytes
  /-- decoding into `Claims`; a missing field leaves the EntityID empty -/
  unclaims : Bytes → Option Bytes
  /-- HMAC -/
  mac : Alg → Bytes → Bytes → Bytes

/-- The byte '.' (lib/token/token.go:48-58) -/
def dot : UInt8 := 46

/-- `strings.Split(s, ".")` (lib/token/token.go:48-58) -/
def split : Bytes → List Bytes
  | [] => [[]]
  | c :: l =>
    if c = dot then [] :: split l
    else match split l with
      | [] => [[c]]
      | w :: ws => (c :: w) :: ws

/-- token.go:10, 25-27 -/
def key : Bytes := [116, 111, 107, 101, 110]

/-- token.go:30-45 `Create`; `none`: error -/
def create (L : Lib) (id : Bytes) : Option Bytes :=
  if id = [] then none -- L31
  else
    let signing := L.b64 (L.header .hs256) ++ dot :: L.b64 (L.claims id) -- `Token.SigningString`
    some (signing ++ dot :: L.b64 (L.mac .hs256 key signing)) -- `SignedString`

/-- `SigningMethodHMAC.Verify` for a key of type `[]byte`; the other methods return an error for such a key.
(lib/token/token.go:48-58) -/
def verify (L : Lib) (a : Alg) (signing sig : Bytes) : Bool :=
  match a with
  | .other => false
  | a => match L.unb64 sig with
    | some s => s == L.mac a key signing
    | none => false

/-- token.go:48-58 `Parse`, with `ParseWithClaims`; `none`: error -/
def parse (L : Lib) (t : Bytes) : Option Bytes :=
  match split t with
  | [h, c, s] =>
    match (L.unb64 h).bind L.unheader with
    | none => none
    | some a =>
      match (L.unb64 c).bind L.unclaims with
      | none => none
      | some id =>
        if id = [] then none -- token.go:17-23 `Valid`
        else if verify L a (h ++ dot :: c) s then some id -- L57
        else none
  | _ => none

end Braid.Token
