import Verif.Schema.Derive
import Verif.Zod.Schema

/-!
# The schemas of Rust types

The zod schemas that the texts of `schema()` and `inline_schema()` evaluate to, computed from the types and
declarations directly. `Verif/Zod/Bridge.lean` proves that they are what the generated text evaluates to.
-/

namespace Verif.Zod
open Verif Verif.Js Verif.Schema

/-- All results, or none if one is missing. -/
def allSome {α : Type} : List (Option α) → Option (List α)
  | [] => some []
  | some a :: r => (allSome r).map (a :: ·)
  | none :: _ => none

/-- The schema of a primitive type (`core/src/build_ins.rs:93-149,273-297`); there is no `z.bool`. -/
def primZ : Prim → Option ZSchema
  | .string | .strRef | .smolStr => some (.string [])
  | .u8 => some (.number [.finite, .int, .gte 0, .lte 255])
  | .u16 => some (.number [.finite, .int, .gte 0, .lte 65535])
  | .u32 => some (.number [.finite, .int, .gte 0, .lte 4294967295])
  | .u64 => some (.number [.finite, .int, .gte 0, .lte (2 ^ 64)])
  | .u128 => some (.number [.finite, .int, .gte 0, .lte (2 ^ 128)])
  | .usize => some (.number [.finite, .int, .gte 0])
  | .i8 => some (.number [.finite, .int, .lte 127, .gte (-128)])
  | .i16 => some (.number [.finite, .int, .lte 32767, .gte (-32768)])
  | .i32 => some (.number [.finite, .int, .lte 2147483647, .gte (-2147483648)])
  | .i64 => some (.number [.finite, .int, .lte (2 ^ 63), .gte (-2 ^ 63)])
  | .i128 => some (.number [.finite, .int, .lte (2 ^ 127), .gte (-2 ^ 127)])
  | .isize => some (.number [.finite, .int])
  | .f32 | .f64 | .notNanF32 | .notNanF64 => some (.number [])
  | .bool => none
  | .char => some (.string [.length 1])
  | .unit => some .null
  | .ipv4 => some (.string [.ipv4])
  | .ipv6 => some (.string [.ipv6])
  | .ip => some (.string [.ip])

/-- `.optional()` for a field with a default. -/
def optZ (optional : Bool) (z : Option ZSchema) : Option ZSchema := if optional then z.map .optional else z

/-- `z.object({ .. })`. -/
def objZ (kvs : List (Str × Option ZSchema)) : Option ZSchema :=
  match allSome (kvs.map (·.2)) with
  | some zs =>
    if distinct (kvs.map (·.1)) && !(kvs.map (·.1)).contains (lit "__proto__") then
      some (.object ((kvs.map (·.1)).zip zs))
    else none
  | none => none

/-- `.extend(..)` for each flattened field. -/
def extendZ (z : Option ZSchema) : List (Option ZSchema) → Option ZSchema
  | [] => z
  | none :: _ => none
  | some _ :: r => extendZ (z.map (fun _ => .broken)) r

section
variable (rec : Method → Ty → Option ZSchema)

/-- The schema of a struct field. -/
def sfieldZ (f : SField) : Option ZSchema := optZ f.optional (rec .inlineSchema f.ty)

/-- The schema of a struct: `derive/src/impl_struct.rs:205-253`. -/
def structZ (s : StructDecl) : Option ZSchema :=
  let flat := (structFields s).filter (·.flatten)
  let fields := (structFields s).filter (fun f => !f.flatten)
  match s.transparent, s.style with
  | true, _ => match fields with
    | f :: _ => sfieldZ rec f
    | [] => none
  | false, .tuple => match fields with
    | [] => none
    | [f] => sfieldZ rec f
    | _ :: _ :: _ => (allSome (fields.map (sfieldZ rec))).map .tuple
  | false, .named =>
      extendZ (objZ (fields.map (fun f => (f.name.getD [], sfieldZ rec f)))) (flat.map (sfieldZ rec))
  | false, .unit => none

/-- The schema of a field of a variant. -/
def vfieldZ (f : Field) : Option ZSchema := optZ f.dflt (rec .inlineSchema f.ty)

/-- The schema of a unit variant: `derive/src/impl_enum/variant/unit_variant.rs:14-30`. -/
def unitZ (tag : Tag) (name : Str) : Option ZSchema :=
  match tag with
  | .external => some (.literal name)
  | .internal t => objZ [(t, some (.literal name))]
  | .adjacent t _ => objZ [(t, some (.literal name))]
  | .untagged => some .null

/-- The fields of a tuple variant. -/
def tupleFieldsZ (fs : List Field) : Option ZSchema :=
  match fs with
  | [f] => vfieldZ rec f
  | fs => (allSome (fs.map (vfieldZ rec))).map .tuple

/-- The schema of a tuple variant: `derive/src/impl_enum/variant/tuple_variant.rs:18-61`. -/
def tupleVariantZ (tag : Tag) (v : Variant) : Option ZSchema :=
  match v.kept with
  | [] => unitZ tag v.name
  | f :: fs => match tag with
    | .external => objZ [(v.name, tupleFieldsZ rec (f :: fs))]
    | .internal _ => objZ [(v.name, tupleFieldsZ rec (f :: fs))]
    | .adjacent t c => objZ [(t, some (.literal v.name)), (c, tupleFieldsZ rec (f :: fs))]
    | .untagged => tupleFieldsZ rec (f :: fs)

/-- The schema of a struct variant: `derive/src/impl_enum/variant/struct_variant.rs:17-52`. -/
def structVariantZ (tag : Tag) (v : Variant) : Option ZSchema :=
  let kvs := v.kept.map (fun f => (f.name, vfieldZ rec f))
  match tag with
  | .external => objZ [(v.name, objZ kvs)]
  | .internal t => objZ ((t, some (.literal v.name)) :: kvs)
  | .adjacent t c => objZ [(t, some (.literal v.name)), (c, objZ kvs)]
  | .untagged => objZ kvs

/-- The schema of a variant. -/
def variantZ (tag : Tag) (v : Variant) : Option ZSchema :=
  match v.style with
  | .unit => unitZ tag v.name
  | .named => structVariantZ rec tag v
  | .tuple => tupleVariantZ rec tag v

/-- `z.discriminatedUnion(tag, [..])`. -/
def discZ (t : Str) (zs : List (Option ZSchema)) : Option ZSchema :=
  match allSome zs with
  | some zs => (discOptions t zs).map (.discUnion t)
  | none => none

/-- The schema of an enum: `derive/src/impl_enum/mod.rs:144-174`. -/
def enumZ (e : EnumDecl) : Option ZSchema :=
  match e.kept with
  | [] => none
  | [v] => variantZ rec e.tag v
  | vs => match e.tag with
    | .external => (allSome (vs.map (variantZ rec e.tag))).map .union
    | .internal t => discZ t (vs.map (variantZ rec e.tag))
    | .adjacent t _ => discZ t (vs.map (variantZ rec e.tag))
    | .untagged => (allSome (vs.map (variantZ rec e.tag))).map .union

/-- The schema of a declaration. -/
def declZ : Decl → Option ZSchema
  | .struct s => match s.from_.ty? with
    | some t => rec .inlineSchema t
    | none => structZ rec s
  | .enum e => match e.from_.ty? with
    | some t => rec .schema t
    | none => enumZ rec e

/-- What other types use for a declared type. -/
def declInlineZ : Decl → Option ZSchema
  | .struct s => some (.lazy s.ns s.name)
  | .enum e => match e.from_.ty? with
    | some t => rec .inlineSchema t
    | none => some (.lazy e.ns e.name)

/-- One unfolding; mirrors `Schema.body`. -/
def zBody (P : Program) : Method → Ty → Option ZSchema
  | m, .named i => match P[i]? with
    | some d => match m with
      | .schema => declZ rec d
      | .inlineSchema => declInlineZ rec d
      | _ => none
    | none => none
  | .inlineSchema, t => rec .schema t
  | .schema, .prim p => primZ p
  | .schema, .wrap _ t => rec .schema t
  | .schema, .option t => (rec .inlineSchema t).map .optional
  | .schema, .vec t => (rec .inlineSchema t).map .array
  | .schema, .hashSet t => (rec .inlineSchema t).map .set
  | .schema, .hashMap k v =>
      (rec .inlineSchema k).bind fun a => (rec .inlineSchema v).bind fun b => some (.map a b)
  | .schema, .array _ t => rec .schema (.vec t)
  | .schema, .btreeSet t => rec .schema (.hashSet t)
  | .schema, .btreeMap k v => rec .schema (.hashMap k v)
  | .schema, .tuple ts => (allSome (ts.map (rec .schema))).map .tuple
  | .schema, .result t e =>
      match objZ [(lit "Ok", rec .inlineSchema t)], objZ [(lit "Err", rec .inlineSchema e)] with
      | some a, some b => some (.union [a, b])
      | _, _ => none
  | _, _ => none

end

/-- The schema, computed to this depth. `none`: not deep enough, or evaluating the text throws. -/
def zOf (P : Program) : Nat → Method → Ty → Option ZSchema
  | 0, _, _ => none
  | n + 1, m, t => zBody (zOf P n) P m t

end Verif.Zod
