import Verif.Schema.Types

/-!
# `#[derive(Zod)]`

Models `derive/src/impl_struct.rs` and `derive/src/impl_enum/**`.
-/

namespace Verif.Schema
open Verif

/-- `[..].join(sep)` on texts with holes. For example `derive/src/impl_struct.rs:191,203,243,255`.
-/
def joinP (sep : Str) : List (List Piece) → List Piece
  | [] => []
  | [x] => x
  | x :: y :: r => x ++ [.txt sep] ++ joinP sep (y :: r)

/-- `Struct::StructField`: `derive/src/impl_struct.rs:256-262`. -/
structure SField where
  name : Option Str
  ty : Ty
  optional : Bool
  transparent : Bool
  flatten : Bool

/-- `derive/src/impl_struct.rs:35-46`. -/
def SField.ofField (transparent : Bool) (f : Field) : SField where
  ty := f.ty
  name := if f.named then some f.name else none
  optional := f.dflt
  transparent := transparent
  flatten := f.flatten

/-- `expand_optional_schema`: `derive/src/impl_struct.rs:291-297`. -/
def optionalText (optional : Bool) : Str := if optional then lit ".optional()" else []

/-- `StructField::expand_schema`: `derive/src/impl_struct.rs:265-289`. -/
def SField.schema (f : SField) : List Piece :=
  match f.flatten, f.name, f.transparent with
  | false, some name, false =>
      [.txt (name ++ lit ": "), .call .inlineSchema f.ty, .txt (optionalText f.optional)]
  | false, some _, true => [.call .inlineSchema f.ty, .txt (optionalText f.optional)]
  | false, none, _ => [.call .inlineSchema f.ty, .txt (optionalText f.optional)]
  | true, _, _ =>
      [.txt (lit ".extend("), .call .inlineSchema f.ty, .txt (optionalText f.optional ++ lit ")")]

/-- `StructField::expand_type_defs`: `derive/src/impl_struct.rs:299-358`. -/
def SField.typeDef (f : SField) : List Piece :=
  match f.flatten, f.name, f.optional, f.transparent with
  | false, some name, false, false => [.txt (name ++ lit ": "), .call .inline f.ty]
  | false, none, false, false => [.call .inline f.ty]
  | false, some name, true, false => [.txt (name ++ lit "?: "), .call .inline f.ty, .txt (lit " | undefined")]
  | false, none, true, false => [.call .inline f.ty, .txt (lit " | undefined")]
  | false, _, false, true => [.call .inline f.ty]
  | false, _, true, true => [.call .inline f.ty, .txt (lit " | undefined")]
  | true, some _, false, false => [.txt (lit " & "), .call .inline f.ty]
  | true, none, false, false => [.call .inline f.ty]
  | true, some _, true, false => [.txt (lit "& ("), .call .inline f.ty, .txt (lit " | undefined)")]
  | true, none, true, false => [.txt (lit "& ("), .call .inline f.ty, .txt (lit " | undefined)")]
  | true, _, false, true => [.call .inline f.ty]
  | true, _, true, true => [.txt (lit "& ("), .call .inline f.ty, .txt (lit " | undefined)")]

/-- The fields the struct macro looks at: `derive/src/impl_struct.rs:35-46`. -/
def structFields (s : StructDecl) : List SField :=
  (s.fields.filter (fun f => !f.skipDe)).map (SField.ofField s.transparent)

/-- `fields.iter().skip_while(|f| !f.optional).find(|f| !f.optional)`:
`derive/src/impl_struct.rs:225-229`. -/
def badDefault (fields : List SField) : Option SField :=
  (fields.dropWhile (fun f => !f.optional)).find? (fun f => !f.optional)

/-- `Struct::expand_schema`: `derive/src/impl_struct.rs:205-253`. -/
def structSchema (s : StructDecl) : Except DeriveErr (List Piece) :=
  let all := structFields s
  let flat := all.filter (·.flatten)
  let fields := all.filter (fun f => !f.flatten)
  match s.transparent, s.style with
  | true, _ => match fields with
    | f :: _ => .ok f.schema
    | [] => .error .panic
  | false, .tuple => match fields with
    | [] => .error .panic
    | [f] => .ok f.schema
    | _ :: _ :: _ =>
      if (badDefault fields).isSome then .error .nonDefaultAfterDefault
      else .ok ([.txt (lit "z.tuple([")] ++ joinP (lit ", ") (fields.map SField.schema) ++ [.txt (lit "])")])
  | false, .named =>
      .ok ([.txt (lit "z.object({")] ++ joinP (lit ",\n") (fields.map SField.schema) ++ [.txt (lit "})")] ++
        joinP [] (flat.map SField.schema))
  | false, .unit => .error .panic

/-- `Struct::expand_type_def`: `derive/src/impl_struct.rs:163-203`. -/
def structTypeDef (s : StructDecl) : Except DeriveErr (List Piece) :=
  let all := structFields s
  let flat := all.filter (·.flatten)
  let fields := all.filter (fun f => !f.flatten)
  match s.transparent, s.style with
  | true, _ => match fields with
    | f :: _ => .ok f.typeDef
    | [] => .error .panic
  | false, .tuple => match fields with
    | [] => .error .panic
    | [f] => .ok f.typeDef
    | _ :: _ :: _ =>
      .ok ([.txt (lit "[")] ++ joinP (lit ", ") (fields.map SField.typeDef) ++ [.txt (lit "]")])
  | false, .named =>
      .ok ([.txt (lit "{")] ++ joinP (lit ",\n") (fields.map SField.typeDef) ++ [.txt (lit "}")] ++
        joinP [] (flat.map SField.typeDef))
  | false, .unit => .error .panic

/-- `z.lazy(() => NS.NAME)`: `derive/src/impl_struct.rs:100-105`. -/
def lazyRef (ns name : Str) : List Piece := [.txt (lit "z.lazy(() => " ++ ns ++ lit "." ++ name ++ lit ")")]

/-- `InlinedType::Ref` displayed: `core/src/lib.rs:43-52`. -/
def tsRef (ns name : Str) : List Piece := [.txt (ns ++ lit "." ++ name)]

/-- `interface_or_type`: `derive/src/impl_struct.rs:126-129`. -/
def structKind (s : StructDecl) : Kind :=
  match decide ((structFields s).length = 1), s.style, s.transparent with
  | _, .unit, _ => .type
  | true, .tuple, _ => .type
  | _, _, true => .type
  | _, _, _ => .interface

/-- `impl_struct::expand`: `derive/src/impl_struct.rs:16-161`; unit structs are rejected by darling
(`derive/src/args.rs:11`), unparsable attributes by `RustDocs::from_attrs` (`derive/src/lib.rs:77-82`).
-/
def deriveStruct (s : StructDecl) : Except DeriveErr Impl :=
  match Derive.docsText s.attrs with
  | none => .error .unreadableAttrs
  | some docs =>
    if s.style = .unit then .error .unsupportedShape
    else
      match structSchema s with
      | .error e => .error e
      | .ok schema =>
        match structTypeDef s with
        | .error e => .error e
        | .ok typeDef =>
          match s.from_.ty? with
          | some t => .ok
              { schema := [.call .inlineSchema t]
                inlineSchema := lazyRef s.ns s.name
                typeDef := [.call .inline t]
                kind := .type
                inline := [.call .inline t]
                docs := some docs }
          | none => .ok
              { schema := schema
                inlineSchema := lazyRef s.ns s.name
                typeDef := typeDef
                kind := structKind s
                inline := tsRef s.ns s.name
                docs := some docs }

/-- `NamedField::expand_schema`, `TupleField::expand_schema`:
`derive/src/impl_enum/field.rs:100-112,128-140`. -/
def variantFieldSchema (style : Style) (f : Field) : List Piece :=
  match style with
  | .named => [.txt (f.name ++ lit ": "), .call .inlineSchema f.ty, .txt (optionalText f.dflt)]
  | _ => [.call .inlineSchema f.ty, .txt (optionalText f.dflt)]

/-- `NamedField::expand_type_def`, `TupleField::expand_type_def`:
`derive/src/impl_enum/field.rs:86-98,116-126`. -/
def variantFieldTypeDef (style : Style) (f : Field) : List Piece :=
  match style, f.dflt with
  | .named, true => [.txt (f.name ++ lit "?: "), .call .inline f.ty, .txt (lit " | undefined")]
  | .named, false => [.txt (f.name ++ lit ": "), .call .inline f.ty]
  | _, true => [.call .inline f.ty, .txt (lit " | undefined")]
  | _, false => [.call .inline f.ty]

/-- `VariantFields::new`: `derive/src/impl_enum/field.rs:14-44`. -/
def Variant.kept (v : Variant) : List Field := v.fields.filter (fun f => !f.skipDe)

/-- `UnitVariant::expand_schema`: `derive/src/impl_enum/variant/unit_variant.rs:14-30`. -/
def unitSchema (tag : Tag) (name : Str) : List Piece :=
  match tag with
  | .external => [.txt (lit "z.literal(\"" ++ name ++ lit "\")")]
  | .internal t => [.txt (lit "z.object({ " ++ t ++ lit ": z.literal(\"" ++ name ++ lit "\") })")]
  | .adjacent t _ => [.txt (lit "z.object({ " ++ t ++ lit ": z.literal(\"" ++ name ++ lit "\") })")]
  | .untagged => [.txt (lit "z.null()")]

/-- `UnitVariant::expand_type_defs`: `derive/src/impl_enum/variant/unit_variant.rs:33-49`. -/
def unitTypeDef (tag : Tag) (name : Str) : List Piece :=
  match tag with
  | .external => [.txt (lit "\"" ++ name ++ lit "\"")]
  | .internal t => [.txt (lit "{ " ++ t ++ lit ": \"" ++ name ++ lit "\" }")]
  | .adjacent t _ => [.txt (lit "{ " ++ t ++ lit ": \"" ++ name ++ lit "\" }")]
  | .untagged => [.txt (lit "null")]

/-- `TupleVariant::expand_schema`: `derive/src/impl_enum/variant/tuple_variant.rs:18-61`. -/
def tupleVariantSchema (tag : Tag) (v : Variant) : List Piece :=
  let inner : List Piece := match v.kept with
    | [f] => variantFieldSchema .tuple f
    | fs => [.txt (lit "z.tuple([")] ++ joinP (lit ", ") (fs.map (variantFieldSchema .tuple)) ++
        [.txt (lit "])")]
  match v.kept with
  | [] => unitSchema tag v.name
  | _ :: _ => match tag with
    | .external => [.txt (lit "z.object({ " ++ v.name ++ lit ": ")] ++ inner ++ [.txt (lit " })")]
    | .internal _ => [.txt (lit "z.object({ " ++ v.name ++ lit ": ")] ++ inner ++ [.txt (lit " })")]
    | .adjacent t c =>
        [.txt (lit "z.object({ " ++ t ++ lit ": z.literal(\"" ++ v.name ++ lit "\"), " ++ c ++ lit ": ")] ++
          inner ++ [.txt (lit " })")]
    | .untagged => inner

/-- `TupleVariant::expand_type_defs`: `derive/src/impl_enum/variant/tuple_variant.rs:63-104`. -/
def tupleVariantTypeDef (tag : Tag) (v : Variant) : List Piece :=
  let inner : List Piece := match v.kept with
    | [f] => variantFieldTypeDef .tuple f
    | fs => [.txt (lit "[")] ++ joinP (lit ", ") (fs.map (variantFieldTypeDef .tuple)) ++ [.txt (lit "]")]
  match v.kept with
  | [] => unitTypeDef tag v.name
  | _ :: _ => match tag with
    | .external => [.txt (lit "{ " ++ v.name ++ lit ": ")] ++ inner ++ [.txt (lit " }")]
    | .internal _ => [.txt (lit "{ " ++ v.name ++ lit ": ")] ++ inner ++ [.txt (lit " }")]
    | .adjacent t c =>
        [.txt (lit "{ " ++ t ++ lit ": \"" ++ v.name ++ lit "\", " ++ c ++ lit ": ")] ++ inner ++
          [.txt (lit " }")]
    | .untagged => inner

/-- `StructVariant::expand_schema`: `derive/src/impl_enum/variant/struct_variant.rs:17-52`. -/
def structVariantSchema (tag : Tag) (v : Variant) : Except DeriveErr (List Piece) :=
  match v.kept with
  | [] => .error .panic
  | f :: fs =>
    let inner := joinP (lit ", ") ((f :: fs).map (variantFieldSchema .named))
    .ok (match tag with
      | .external =>
          [.txt (lit "z.object({ " ++ v.name ++ lit ": z.object({ ")] ++ inner ++ [.txt (lit " }) })")]
      | .internal t =>
          [.txt (lit "z.object({ " ++ t ++ lit ": z.literal(\"" ++ v.name ++ lit "\"), ")] ++ inner ++
            [.txt (lit " })")]
      | .adjacent t c =>
          [.txt (lit "z.object({ " ++ t ++ lit ": z.literal(\"" ++ v.name ++ lit "\"), " ++ c ++
            lit ": z.object({ ")] ++ inner ++ [.txt (lit " }) })")]
      | .untagged => [.txt (lit "z.object({ ")] ++ inner ++ [.txt (lit " })")])

/-- `StructVariant::expand_type_defs`: `derive/src/impl_enum/variant/struct_variant.rs:54-96`. -/
def structVariantTypeDef (tag : Tag) (v : Variant) : Except DeriveErr (List Piece) :=
  match v.kept with
  | [] => .error .panic
  | f :: fs =>
    let inner := joinP (lit ", ") ((f :: fs).map (variantFieldTypeDef .named))
    .ok (match tag with
      | .external => [.txt (lit "{ " ++ v.name ++ lit ": { ")] ++ inner ++ [.txt (lit " } }")]
      | .internal t => [.txt (lit "{ " ++ t ++ lit ": \"" ++ v.name ++ lit "\", ")] ++ inner ++ [.txt (lit " }")]
      | .adjacent t c =>
          [.txt (lit "{ " ++ t ++ lit ": \"" ++ v.name ++ lit "\", " ++ c ++ lit ": { ")] ++ inner ++
            [.txt (lit " } }")]
      | .untagged => [.txt (lit "{ ")] ++ inner ++ [.txt (lit " }")])

/-- `Variant::expand_schema`: `derive/src/impl_enum/variant/mod.rs:52-58`. -/
def variantSchema (tag : Tag) (v : Variant) : Except DeriveErr (List Piece) :=
  match v.style with
  | .unit => .ok (unitSchema tag v.name)
  | .named => structVariantSchema tag v
  | .tuple => .ok (tupleVariantSchema tag v)

/-- `Variant::expand_type_def`: `derive/src/impl_enum/variant/mod.rs:61-67`. -/
def variantTypeDef (tag : Tag) (v : Variant) : Except DeriveErr (List Piece) :=
  match v.style with
  | .unit => .ok (unitTypeDef tag v.name)
  | .named => structVariantTypeDef tag v
  | .tuple => .ok (tupleVariantTypeDef tag v)

/-- All succeed, in order. A compile-time error of one variant is one of the enum:
`derive/src/impl_enum/mod.rs:30-50`. -/
def allOk {α ε : Type} : List (Except ε α) → Except ε (List α)
  | [] => .ok []
  | .ok a :: r => match allOk r with
    | .ok l => .ok (a :: l)
    | .error e => .error e
  | .error e :: _ => .error e

/-- The variants the enum macro looks at: `derive/src/impl_enum/mod.rs:30-35`. -/
def EnumDecl.kept (e : EnumDecl) : List Variant := e.variants.filter (fun v => !v.skipDe)

/-- `Enum::expand_schema`: `derive/src/impl_enum/mod.rs:144-174`. -/
def enumSchema (e : EnumDecl) : Except DeriveErr (List Piece) :=
  match e.kept with
  | [] => .error .emptyEnum
  | [v] => variantSchema e.tag v
  | vs => match allOk (vs.map (variantSchema e.tag)) with
    | .error err => .error err
    | .ok schemas =>
      .ok (match e.tag with
        | .external => [.txt (lit "z.union([")] ++ joinP (lit ", ") schemas ++ [.txt (lit "])")]
        | .internal t =>
            [.txt (lit "z.discriminatedUnion(\"" ++ t ++ lit "\", [")] ++ joinP (lit ", ") schemas ++
              [.txt (lit "])")]
        | .adjacent t _ =>
            [.txt (lit "z.discriminatedUnion(\"" ++ t ++ lit "\", [")] ++ joinP (lit ", ") schemas ++
              [.txt (lit "])")]
        | .untagged => [.txt (lit "z.union([")] ++ joinP (lit ", ") schemas ++ [.txt (lit "])")])

/-- `Enum::expand_typ_defs`: `derive/src/impl_enum/mod.rs:176-197`. -/
def enumTypeDef (e : EnumDecl) : Except DeriveErr (List Piece) :=
  match e.kept with
  | [] => .error .emptyEnum
  | [v] => variantTypeDef e.tag v
  | vs => match allOk (vs.map (variantTypeDef e.tag)) with
    | .error err => .error err
    | .ok defs => .ok (joinP (lit " | ") defs)

/-- `impl_enum::expand`: `derive/src/impl_enum/mod.rs:16-135`. -/
def deriveEnum (e : EnumDecl) : Except DeriveErr Impl :=
  match Derive.docsText e.attrs with
  | none => .error .unreadableAttrs
  | some docs =>
    match enumSchema e with
    | .error err => .error err
    | .ok schema =>
      match enumTypeDef e with
      | .error err => .error err
      | .ok typeDef =>
        match e.from_.ty? with
        | some t => .ok
            { schema := [.call .schema t]
              inlineSchema := [.call .inlineSchema t]
              typeDef := [.call .typeDef t]
              kind := .same t
              inline := [.call .inline t]
              docs := some docs }
        | none => .ok
            { schema := schema
              inlineSchema := lazyRef e.ns e.name
              typeDef := typeDef
              kind := .type
              inline := tsRef e.ns e.name
              docs := some docs }

/-- `zod`: `derive/src/lib.rs:58-96`. Declarations on which serde's own checks fail
(`cx.check().unwrap()`) are not modelled. -/
def derive : Decl → Except DeriveErr Impl
  | .struct s => deriveStruct s
  | .enum e => deriveEnum e

end Verif.Schema
