import Verif.Schema.Derive

/-!
# Running `schema()`, `inline_schema()`, `type_def()` and `inline()`

Models `core/src/build_ins.rs` and the defaults of `trait ZodType` (`core/src/lib.rs:18-33`): the body of
each function as a text with calls, and its execution.
-/

namespace Verif.Schema
open Verif

/-- `schema` of `impl_primitive!`: `core/src/build_ins.rs:93-149,273-297`. -/
def Prim.schema : Prim → Str
  | .string => lit "z.string()"
  | .strRef => lit "z.string()"
  | .u8 => lit "z.number().finite().int().nonnegative().lte(255)"
  | .u16 => lit "z.number().finite().int().nonnegative().lte(65535)"
  | .u32 => lit "z.number().finite().int().nonnegative().lte(4294967295)"
  | .u64 => lit "z.number().finite().int().nonnegative().lte(18446744073709551615)"
  | .u128 => lit "z.number().finite().int().nonnegative().lte(340282366920938463463374607431768211455)"
  | .usize => lit "z.number().finite().int().nonnegative()"
  | .i8 => lit "z.number().finite().int().lte(127).gte(-128)"
  | .i16 => lit "z.number().finite().int().lte(32767).gte(-32768)"
  | .i32 => lit "z.number().finite().int().lte(2147483647).gte(-2147483648)"
  | .i64 => lit "z.number().finite().int().lte(9223372036854775807).gte(-9223372036854775808)"
  | .i128 => lit "z.number().finite().int().lte(170141183460469231731687303715884105727).gte(-170141183460469231731687303715884105728)"
  | .isize => lit "z.number().finite().int()"
  | .f32 => lit "z.number()"
  | .f64 => lit "z.number()"
  | .bool => lit "z.bool()"
  | .char => lit "z.string().length(1)"
  | .unit => lit "z.null()"
  | .ipv4 => lit "z.string().ip({ version: \"v4\" })"
  | .ipv6 => lit "z.string().ip({ version: \"v6\" })"
  | .ip => lit "z.string().ip()"
  | .smolStr => lit "z.string()"
  | .notNanF32 => lit "z.number()"
  | .notNanF64 => lit "z.number()"

/-- `type_def` of `impl_primitive!`: the same lines. `core/src/build_ins.rs:93-149,273-297`. -/
def Prim.typeDef : Prim → Str
  | .string | .strRef | .char | .ipv4 | .ipv6 | .ip | .smolStr => lit "string"
  | .u8 | .u16 | .u32 | .u64 | .u128 | .usize => lit "number"
  | .i8 | .i16 | .i32 | .i64 | .i128 | .isize => lit "number"
  | .f32 | .f64 | .notNanF32 | .notNanF64 => lit "number"
  | .bool => lit "boolean"
  | .unit => lit "null"

/-- The body of a function of `impl ZodType`. `none`: the type does not exist (index out of range)
or its declaration does not compile. `core/src/build_ins.rs:4-318`, as cited at the cases. -/
def body (P : Program) : Method → Ty → Option (List Piece)
  -- derived types
  | m, .named i => match (P[i]?).map derive with
    | some (.ok impl) => some (match m with
      | .schema => impl.schema
      | .inlineSchema => impl.inlineSchema
      | .typeDef => impl.typeDef
      | .inline => impl.inline)
    | _ => none
  -- `ZodType::inline_schema`, `ZodType::inline`: `core/src/lib.rs:21-23,30-32`
  | .inlineSchema, t => some [.call .schema t]
  | .inline, t => some [.call .typeDef t]
  -- `impl_primitive!`: `core/src/build_ins.rs:4-24`
  | .schema, .prim p => some [.txt p.schema]
  | .typeDef, .prim p => some [.txt p.typeDef]
  -- `impl_wrapper!`: `core/src/build_ins.rs:70-91`
  | .schema, .wrap _ t => some [.call .schema t]
  | .typeDef, .wrap _ t => some [.call .typeDef t]
  -- `Option`: `core/src/build_ins.rs:224-241`
  | .schema, .option t => some [.call .inlineSchema t, .txt (lit ".optional()")]
  | .typeDef, .option t => some [.txt (lit "("), .call .typeDef t, .txt (lit " | undefined)")]
  -- `Vec`: `core/src/build_ins.rs:170-186`
  | .schema, .vec t => some [.txt (lit "z.array("), .call .inlineSchema t, .txt (lit ")")]
  | .typeDef, .vec t => some [.txt (lit "Array<"), .call .typeDef t, .txt (lit ">")]
  -- `HashSet`: `core/src/build_ins.rs:188-204`
  | .schema, .hashSet t => some [.txt (lit "z.set("), .call .inlineSchema t, .txt (lit ")")]
  | .typeDef, .hashSet t => some [.txt (lit "Set<"), .call .typeDef t, .txt (lit ">")]
  -- `HashMap`: `core/src/build_ins.rs:206-222`
  | .schema, .hashMap k v =>
      some [.txt (lit "z.map("), .call .inlineSchema k, .txt (lit ", "), .call .inlineSchema v,
        .txt (lit ")")]
  | .typeDef, .hashMap k v =>
      some [.txt (lit "Map<"), .call .typeDef k, .txt (lit ", "), .call .typeDef v, .txt (lit ">")]
  -- `impl_shadow!`: `core/src/build_ins.rs:26-41,166-168`
  | .schema, .array _ t => some [.call .schema (.vec t)]
  | .typeDef, .array _ t => some [.call .typeDef (.vec t)]
  | .schema, .btreeSet t => some [.call .schema (.hashSet t)]
  | .typeDef, .btreeSet t => some [.call .typeDef (.hashSet t)]
  | .schema, .btreeMap k v => some [.call .schema (.hashMap k v)]
  | .typeDef, .btreeMap k v => some [.call .typeDef (.hashMap k v)]
  -- `impl_tuples!`: `core/src/build_ins.rs:43-68`
  | .schema, .tuple ts =>
      some ([.txt (lit "z.tuple([")] ++ joinP (lit ", ") (ts.map (fun t => [.call .schema t])) ++
        [.txt (lit "])")])
  | .typeDef, .tuple ts =>
      some ([.txt (lit "[")] ++ joinP (lit ", ") (ts.map (fun t => [.call .typeDef t])) ++ [.txt (lit "]")])
  -- `Result`: `core/src/build_ins.rs:243-271`
  | .schema, .result t e =>
      some [.txt (lit "z.union([z.object({ Ok: "), .call .inlineSchema t,
        .txt (lit " }), z.object({ Err: "), .call .inlineSchema e, .txt (lit " })])")]
  | .typeDef, .result t e =>
      some [.txt (lit "{ Ok: "), .call .typeDef t, .txt (lit " } | { Err: "), .call .typeDef e,
        .txt (lit " }")]

/-- Executing a text with calls. `format!`, for example `core/src/build_ins.rs:170-186`. -/
def runPieces (f : Method → Ty → Option Str) : List Piece → Option Str
  | [] => some []
  | .txt s :: r => (runPieces f r).map (s ++ ·)
  | .call m t :: r => match f m t with
    | some a => (runPieces f r).map (a ++ ·)
    | none => none

/-- The result of a call of nesting depth below the fuel; `none`: deeper. A call of a function of
`trait ZodType` (`core/src/lib.rs:18-33`) in Rust. -/
def eval (P : Program) : Nat → Method → Ty → Option Str
  | 0, _, _ => none
  | n + 1, m, t => match body P m t with
    | some ps => runPieces (eval P n) ps
    | none => none

/-- The call returns this text. `core/src/lib.rs:18-33`. -/
def Returns (P : Program) (m : Method) (t : Ty) (s : Str) : Prop := ∃ n, eval P n m t = some s

/-- The `TsTypeDef` variant `type_def()` returns: `interface` or `type`. All built-in
implementations return `Type` or delegate. `core/src/lib.rs:112-116`, `core/src/build_ins.rs:4-91`.
-/
def kindOf (P : Program) : Nat → Ty → Option Kind
  | 0, _ => none
  | n + 1, t => match t with
    | .named i => match (P[i]?).map derive with
      | some (.ok impl) => match impl.kind with
        | .same u => kindOf P n u
        | k => some k
      | _ => none
    | .wrap _ u => kindOf P n u
    | _ => some .type

/-- Every declaration compiles. `derive/src/lib.rs:58-96`. -/
def Compiles (P : Program) : Prop := ∀ d ∈ P, ∃ impl, derive d = .ok impl

end Verif.Schema
