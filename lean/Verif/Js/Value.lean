import Verif.Js.Num
import Verif.Rpc.Wire

/-!
# JavaScript values and JSON

The values a zod schema may be asked to parse, `JSON.parse` and `JSON.stringify`.
-/

namespace Verif.Js
open Verif

/-- JavaScript values. Strings of UTF-16 code units are split into well-formed ones (`str`) and those
containing a lone surrogate (`badStr`, of which only the length is kept). `obj` is an object that is none of
the built-in kinds below, given by its own enumerable properties, without repetition; properties inherited
from `Object.prototype` are not modelled. `other` is anything zod's `getParsedType` does not recognise as
one of the other kinds (functions, symbols, bigints, dates, promises). -/
inductive JsVal where
  | undefined
  | null
  | bool (b : Bool)
  | num (n : JsNum)
  | str (s : Str)
  | badStr (units : Nat)
  | arr (l : List JsVal)
  | obj (kvs : List (Str × JsVal))
  | set (l : List JsVal)
  | map (kvs : List (JsVal × JsVal))
  | other

/-- `s.length`: UTF-16 code units. -/
def units (s : Str) : Nat := (s.map (fun c => if 65536 ≤ c.toNat then 2 else 1)).sum

/-- Reading a property: `undefined` if absent. -/
def objGet (kvs : List (Str × JsVal)) (k : Str) : JsVal :=
  match kvs.find? (fun p => p.1 = k) with
  | some p => p.2
  | none => .undefined

/-- `key in obj`. -/
def objHas (kvs : List (Str × JsVal)) (k : Str) : Bool := kvs.any (fun p => p.1 = k)

/-- `JSON.parse`, from the document instead of its text. Integers are rounded to doubles; a number with a
fraction or exponent keeps its exact value (rounding it to a double does not change whether it is finite or
an integer unless it is astronomically large). Documents with repeated keys are not modelled (the first
occurrence is read instead of the last). -/
def fromJson : Json → JsVal
  | .null => .null
  | .bool b => .bool b
  | .num (.int i) => .num (.fin (roundInt i))
  | .num (.flt q) => .num (.fin q)
  | .str s => .str s
  | .arr l => .arr (fromJsonList l)
  | .obj kvs => .obj (fromJsonObj kvs)
where
  fromJsonList : List Json → List JsVal
    | [] => []
    | j :: r => fromJson j :: fromJsonList r
  fromJsonObj : List (Str × Json) → List (Str × JsVal)
    | [] => []
    | (k, j) :: r => (k, fromJson j) :: fromJsonObj r

theorem fromJson_arr (l : List Json) : fromJson (.arr l) = .arr (l.map fromJson) := by
  rw [fromJson]
  congr 1
  induction l with
  | nil => rfl
  | cons j r ih => rw [fromJson.fromJsonList, ih]; rfl

theorem fromJson_obj (kvs : List (Str × Json)) :
    fromJson (.obj kvs) = .obj (kvs.map (fun p => (p.1, fromJson p.2))) := by
  rw [fromJson]
  congr 1
  induction kvs with
  | nil => rfl
  | cons p r ih => obtain ⟨k, j⟩ := p; rw [fromJson.fromJsonObj, ih]; rfl

/-- The JSON document for a finite number: integers are printed without a fraction. -/
def numJson (q : Rat) : Json := if q.den = 1 then .num (.int q.num) else .num (.flt q)

/-- `JSON.stringify`, to the document instead of its text. `none`: the text contains an escaped lone
surrogate, so it is not a JSON document of scalar values (and `serde_json` rejects it); `some none`: the
result is `undefined`. Objects with a `toJSON` method are not modelled. Numbers are printed as integers when
they are integers; beyond 2^53 and for exponents the shortest digits JavaScript prints denote the same
double but not the same rational, which is not modelled. -/
def stringify : JsVal → Option (Option Json)
  | .undefined => some none
  | .null => some (some .null)
  | .bool b => some (some (.bool b))
  | .num (.fin q) => some (some (numJson q))
  | .num _ => some (some .null)
  | .str s => some (some (.str s))
  | .badStr _ => none
  | .arr l => (stringifyList l).map (fun js => some (.arr js))
  | .obj kvs => (stringifyObj kvs).map (fun js => some (.obj js))
  | .set _ => some (some (.obj []))
  | .map _ => some (some (.obj []))
  | .other => some none
where
  /-- Elements: `undefined` becomes `null`. -/
  stringifyList : List JsVal → Option (List Json)
    | [] => some []
    | v :: r => match stringify v, stringifyList r with
      | some j, some js => some (j.getD .null :: js)
      | _, _ => none
  /-- Properties: `undefined` is left out. -/
  stringifyObj : List (Str × JsVal) → Option (List (Str × Json))
    | [] => some []
    | (k, v) :: r => match stringify v, stringifyObj r with
      | some (some j), some js => some ((k, j) :: js)
      | some none, some js => some js
      | _, _ => none

end Verif.Js
