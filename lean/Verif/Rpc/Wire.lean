import Verif.Basic.Str

/-!
# JSON documents, requests and responses

Models `core/src/rpc/mod.rs` and `core/src/rpc/error.rs`: the wire types and the `Deserialize`
implementation serde derives for `Request`.
-/

namespace Verif

/-- A JSON number token as serde_json classifies it: written without fraction and exponent (`int`),
or otherwise (`flt`; also `-0`). Used by `core/src/rpc/mod.rs:15,27,31` (`serde_json::Value`). -/
inductive JNum where
  | int (n : Int)
  | flt (q : Rat)

/-- A JSON document as it appears on the wire: object members in source order, possibly with
repeated keys. A `serde_json::Value` is the special case produced by `Json.toValue`. Models the
texts of `src/rpc/servers/axum.rs:45,59` and the values of `core/src/rpc/mod.rs:15,27,31`. -/
inductive Json where
  | null
  | bool (b : Bool)
  | num (n : JNum)
  | str (s : Str)
  | arr (l : List Json)
  | obj (kvs : List (Str × Json))

namespace Json

/-- `serde_json::Map::insert` for each member in order: repeated keys keep the last value, keys are
sorted (default `BTreeMap` representation). Used by `core/src/rpc/mod.rs:14-15`. -/
def ofPairs (kvs : List (Str × Json)) : List (Str × Json) :=
  kvs.foldl (fun m p => BMap.insert p.1 p.2 m) []

mutual
/-- Reading a document into `serde_json::Value`: every object becomes a map. Used by
`core/src/rpc/mod.rs:14-15`. -/
def toValue : Json → Json
  | .null => .null
  | .bool b => .bool b
  | .num n => .num n
  | .str s => .str s
  | .arr l => .arr (toValues l)
  | .obj kvs => .obj (ofPairs (toValuePairs kvs))
/-- `toValue` on the elements of an array (`core/src/rpc/mod.rs:14-15`). -/
def toValues : List Json → List Json
  | [] => []
  | x :: r => toValue x :: toValues r
/-- `toValue` on the members of an object (`core/src/rpc/mod.rs:14-15`). -/
def toValuePairs : List (Str × Json) → List (Str × Json)
  | [] => []
  | (k, x) :: r => (k, toValue x) :: toValuePairs r
end

/-- `usize::deserialize` (64-bit target) on a JSON number or anything else.
`core/src/rpc/mod.rs:13,18`. -/
def asUsize : Json → Option Nat
  | .num (.int n) => if 0 ≤ n ∧ n < 2 ^ 64 then some n.toNat else none
  | _ => none

end Json

/-- Why a document or value was rejected (the text of the `serde_json::Error` is not modelled).
`core/src/rpc/error.rs:1-7`. -/
inductive SerdeErr where
  | expectedEnum | unknownVariant | invalidType | missingField | duplicateField | invalidLength
  | invalidValue | custom
  deriving DecidableEq, Repr

/-- `core/src/rpc/mod.rs:9-20` `enum Request`. -/
inductive Request where
  | exec (id : Nat) (value : Json)
  | cancelStream (id : Nat)

/-- `core/src/rpc/mod.rs:22-37` `enum Response`; `core/src/rpc/error.rs:1-7` has the single
variant `Json`, its text is abstracted to `SerdeErr`. -/
inductive Response where
  | method (id : Nat) (data : Json)
  | stream (id : Nat) (data : Json)
  | error (id : Option Nat) (data : SerdeErr)

namespace Response

/-- `core/src/rpc/mod.rs:40-45` `Response::error`. -/
def mkError (id : Option Nat) (err : SerdeErr) : Response := .error id err

/-- `core/src/rpc/mod.rs:47-52` `Response::method`; the argument is the result of
`serde_json::to_value(value)`. -/
def mkMethod (id : Nat) (value : Except SerdeErr Json) : Response :=
  match value with
  | .ok data => .method id data
  | .error data => mkError (some id) data

/-- `core/src/rpc/mod.rs:54-59` `Response::stream`; argument as in `mkMethod`. -/
def mkStream (id : Nat) (value : Except SerdeErr Json) : Response :=
  match value with
  | .ok data => .stream id data
  | .error value => mkError (some id) value

end Response

namespace Request

/-- Derived visitor for the members of an `exec` object (`core/src/rpc/mod.rs:12-16`): `id` must
occur exactly once, every other member is collected for the flattened `value`. -/
def execFields : List (Str × Json) → Option Nat → List (Str × Json) →
    Except SerdeErr (Nat × List (Str × Json))
  | [], none, _ => .error .missingField
  | [], some id, rest => .ok (id, rest)
  | (k, v) :: r, id, rest =>
      if k = lit "id" then
        match id with
        | some _ => .error .duplicateField
        | none =>
          match v.asUsize with
          | some n => execFields r (some n) rest
          | none => .error .invalidType
      else execFields r id (rest ++ [(k, v)])

/-- Derived visitor for the members of a `cancelStream` object (`core/src/rpc/mod.rs:17-19`):
unknown members are ignored. -/
def cancelFields : List (Str × Json) → Option Nat → Except SerdeErr Nat
  | [], none => .error .missingField
  | [], some id => .ok id
  | (k, v) :: r, id =>
      if k = lit "id" then
        match id with
        | some _ => .error .duplicateField
        | none =>
          match v.asUsize with
          | some n => cancelFields r (some n)
          | none => .error .invalidType
      else cancelFields r id

/-- `serde_json::from_str::<Request>` on a syntactically valid document
(`#[derive(Deserialize)] #[serde(rename_all = "camelCase")]`, `core/src/rpc/mod.rs:9-20`).
Externally tagged: an object with exactly one member. `exec` has a flattened field, so serde derives
a map-only visitor; `cancelStream` is a plain struct variant and may also be given as an array. -/
def decode : Json → Except SerdeErr Request
  | .obj [(k, body)] =>
      if k = lit "exec" then
        match body with
        | .obj kvs =>
          match execFields kvs none [] with
          | .ok (id, rest) => .ok (.exec id (Json.toValue (.obj rest)))
          | .error e => .error e
        | _ => .error .invalidType
      else if k = lit "cancelStream" then
        match body with
        | .obj kvs =>
          match cancelFields kvs none with
          | .ok id => .ok (.cancelStream id)
          | .error e => .error e
        | .arr [v] =>
          match v.asUsize with
          | some n => .ok (.cancelStream n)
          | none => .error .invalidType
        | .arr _ => .error .invalidLength
        | _ => .error .invalidType
      else .error .unknownVariant
  | .obj _ => .error .expectedEnum
  | .str s =>
      -- a bare string selects a unit variant; both variants carry data
      if s = lit "exec" ∨ s = lit "cancelStream" then .error .invalidType else .error .unknownVariant
  | _ => .error .expectedEnum

end Request
end Verif
