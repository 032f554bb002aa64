import Verif.Js.Parser
import Verif.Js.Value

/-!
# zod schemas and the expressions that build them

zod (version 3.20, the version of `examples/*/package.json`) is not part of this repository; this file and
`Verif/Zod/Parse.lean` state what the generated code relies on: which calls construct which schema, and which
throw.
-/

namespace Verif.Zod
open Verif Verif.Js

/-- Checks on strings (zod `ZodStringCheck`, the kinds that occur). -/
inductive StrCheck where
  | length (n : Int)
  | ip
  | ipv4
  | ipv6
  deriving DecidableEq

/-- Checks on numbers (zod `ZodNumberCheck`, the kinds that occur). -/
inductive NumCheck where
  | finite
  | int
  | gte (n : Int)
  | lte (n : Int)
  deriving DecidableEq

/-- A zod schema. `discUnion` keeps the literal of each option's discriminator. `broken` is the result of
`object.extend(schema)`: constructing it succeeds, parsing throws. -/
inductive ZSchema where
  | string (checks : List StrCheck)
  | number (checks : List NumCheck)
  | null
  | literal (s : Str)
  | array (z : ZSchema)
  | set (z : ZSchema)
  | map (k v : ZSchema)
  | tuple (zs : List ZSchema)
  | object (shape : List (Str × ZSchema))
  | union (zs : List ZSchema)
  | discUnion (tag : Str) (options : List (Str × ZSchema))
  | optional (z : ZSchema)
  | lazy (ns name : Str)
  | broken

/-- Values that occur while a schema expression is evaluated. `thunk ns name` is the function
`() => ns.name`. -/
inductive V where
  | zod
  | bound (v : V) (m : Str)
  | schema (z : ZSchema)
  | list (vs : List V)
  | record (kvs : List (Str × V))
  | num (i : Int)
  | str (s : Str)
  | thunk (ns name : Str)

/-- The methods generated code uses. -/
inductive Meth where
  | string | number | null | literal | array | set | map | tuple | object | union | discriminatedUnion
  | lazy | finite | int | nonnegative | lte | gte | length | ip | optional | extend

/-- The method with a name; `none`: zod has none or the generated code does not use it. -/
def methOf (s : Str) : Option Meth :=
  if s = lit "string" then some .string
  else if s = lit "number" then some .number
  else if s = lit "null" then some .null
  else if s = lit "literal" then some .literal
  else if s = lit "array" then some .array
  else if s = lit "set" then some .set
  else if s = lit "map" then some .map
  else if s = lit "tuple" then some .tuple
  else if s = lit "object" then some .object
  else if s = lit "union" then some .union
  else if s = lit "discriminatedUnion" then some .discriminatedUnion
  else if s = lit "lazy" then some .lazy
  else if s = lit "finite" then some .finite
  else if s = lit "int" then some .int
  else if s = lit "nonnegative" then some .nonnegative
  else if s = lit "lte" then some .lte
  else if s = lit "gte" then some .gte
  else if s = lit "length" then some .length
  else if s = lit "ip" then some .ip
  else if s = lit "optional" then some .optional
  else if s = lit "extend" then some .extend
  else none

/-- All elements are schemas. -/
def schemas : List V → Option (List ZSchema)
  | [] => some []
  | .schema z :: r => (schemas r).map (z :: ·)
  | _ :: _ => none

/-- All properties are schemas. -/
def shapeOf : List (Str × V) → Option (List (Str × ZSchema))
  | [] => some []
  | (k, .schema z) :: r => (shapeOf r).map ((k, z) :: ·)
  | _ :: _ => none

/-- The discriminator literal of an option of `z.discriminatedUnion`; `none`: the constructor throws. (zod
also accepts a discriminator that is `z.lazy` of a literal, `z.null()` or an enum; no generated schema that
is meant to work uses that, so it counts as throwing here.) -/
def discriminator (tag : Str) : ZSchema → Option Str
  | .object shape => match shape.find? (fun p => p.1 = tag) with
    | some (_, .literal s) => some s
    | _ => none
  | _ => none

/-- The options of `z.discriminatedUnion`; `none`: the constructor throws, because an option lacks the
discriminator or two options share its value. -/
def discOptions (tag : Str) : List ZSchema → Option (List (Str × ZSchema))
  | [] => some []
  | z :: r => match discriminator tag z, discOptions tag r with
    | some s, some l => if l.any (fun p => p.1 = s) then none else some ((s, z) :: l)
    | _, _ => none

/-- Calling a method. `none`: it does not exist or throws. -/
def applyMeth : V → Meth → List V → Option V
  | .zod, .string, [] => some (.schema (.string []))
  | .zod, .number, [] => some (.schema (.number []))
  | .zod, .null, [] => some (.schema .null)
  | .zod, .literal, [.str s] => some (.schema (.literal s))
  | .zod, .array, [.schema z] => some (.schema (.array z))
  | .zod, .set, [.schema z] => some (.schema (.set z))
  | .zod, .map, [.schema k, .schema v] => some (.schema (.map k v))
  | .zod, .tuple, [.list vs] => (schemas vs).map (fun zs => .schema (.tuple zs))
  | .zod, .object, [.record kvs] => (shapeOf kvs).map (fun sh => .schema (.object sh))
  | .zod, .union, [.list vs] => (schemas vs).map (fun zs => .schema (.union zs))
  | .zod, .discriminatedUnion, [.str t, .list vs] => match schemas vs with
    | some zs => (discOptions t zs).map (fun l => .schema (.discUnion t l))
    | none => none
  | .zod, .lazy, [.thunk ns name] => some (.schema (.lazy ns name))
  | .schema (.number cs), .finite, [] => some (.schema (.number (cs ++ [.finite])))
  | .schema (.number cs), .int, [] => some (.schema (.number (cs ++ [.int])))
  | .schema (.number cs), .nonnegative, [] => some (.schema (.number (cs ++ [.gte 0])))
  | .schema (.number cs), .lte, [.num i] => some (.schema (.number (cs ++ [.lte i])))
  | .schema (.number cs), .gte, [.num i] => some (.schema (.number (cs ++ [.gte i])))
  | .schema (.string cs), .length, [.num i] => some (.schema (.string (cs ++ [.length i])))
  | .schema (.string cs), .ip, [] => some (.schema (.string (cs ++ [.ip])))
  | .schema (.string cs), .ip, [.record [(k, .str v)]] =>
      if k = lit "version" then
        if v = lit "v4" then some (.schema (.string (cs ++ [.ipv4])))
        else if v = lit "v6" then some (.schema (.string (cs ++ [.ipv6])))
        else none
      else none
  | .schema z, .optional, [] => some (.schema (.optional z))
  | .schema (.object _), .extend, [.schema _] => some (.schema .broken)
  | .schema .broken, .extend, [.schema _] => some (.schema .broken)
  | _, _, _ => none

/-- No element occurs twice. -/
def distinct : List Str → Bool
  | [] => true
  | x :: r => !r.contains x && distinct r

/-- An object literal. Repeated keys are an error in TypeScript (TS1117); the key `__proto__` sets the
prototype instead of a property and is not modelled. -/
def recordOf (keys : List Str) (vs : List V) : Option V :=
  if distinct keys && !keys.contains (lit "__proto__") then some (.record (keys.zip vs)) else none

/-- Evaluating an expression where `z` is zod and nothing else is in scope but namespaces, which are only
used inside arrow functions. `none`: it throws. -/
def evalE : JsExpr → Option V
  | .var x => if x = lit "z" then some .zod else none
  | .num i => some (.num (roundInt i))
  | .str s => some (.str s)
  | .member e m => (evalE e).map (fun v => .bound v m)
  | .arrow (.member (.var ns) name) => if ns = lit "z" then none else some (.thunk ns name)
  | .arrow _ => none
  | .arr es => (evalEs es).map .list
  | .obj keys vals => match evalEs vals with
    | some vs => recordOf keys vs
    | none => none
  | .call f args => match evalE f, evalEs args with
    | some (.bound v m), some vs => match methOf m with
      | some m => applyMeth v m vs
      | none => none
    | _, _ => none
  | .spread _ => none
where
  evalEs : List JsExpr → Option (List V)
    | [] => some []
    | e :: r => match evalE e, evalEs r with
      | some v, some vs => some (v :: vs)
      | _, _ => none

/-- The schema a text evaluates to; `none` if it is not an expression, throws, or is not a schema. -/
def readSchema (s : Str) : Option ZSchema :=
  match readExpr s with
  | some e => match evalE e with
    | some (.schema z) => some z
    | _ => none
  | none => none

example : readSchema (lit "z.number().finite().int().lte(127).gte(-128)") =
    some (.number [.finite, .int, .lte 127, .gte (-128)]) := rfl
example : readSchema (lit "z.bool()") = none := rfl
example : readSchema (lit "z.string().ip({ version: \"v6\" })") = some (.string [.ipv6]) := rfl

end Verif.Zod
