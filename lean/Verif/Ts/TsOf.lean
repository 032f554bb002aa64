import Verif.Schema.Derive
import Verif.Schema.Eval
import Verif.Ts.Parser

/-!
# The TypeScript types of Rust types

What the texts of `type_def()` and `inline()` are read as, computed from the types and declarations directly.
`Verif/Ts/Bridge.lean` proves that this is how the generated text is read.
-/

namespace Verif.Ts
open Verif Verif.Js Verif.Schema

/-- `undefined` -/
def undefD : Dnf := [[.name [lit "undefined"]]]

/-- ` | undefined` for a field with a default. -/
def optD (opt : Bool) (d : Dnf) : Dnf := if opt then d ++ undefD else d

section
variable (rec : Method → Ty → Dnf)

/-- The type of a struct field: `derive/src/impl_struct.rs:299-358`. -/
def sfieldD (f : SField) : Dnf := optD f.optional (rec .inline f.ty)

/-- The property of a struct field. -/
def sfieldP (f : SField) : Str × Bool × Dnf := (f.name.getD [], f.optional, sfieldD rec f)

/-- The operand of `&` for a flattened field. -/
def flatD (f : SField) : Dnf := if f.optional then [[ofDnf (rec .inline f.ty ++ undefD)]] else rec .inline f.ty

/-- The type of a struct: `derive/src/impl_struct.rs:163-203`. -/
def structD (s : StructDecl) : Dnf :=
  let flat := (structFields s).filter (·.flatten)
  let fields := (structFields s).filter (fun f => !f.flatten)
  match s.transparent, s.style with
  | true, _ => match fields with
    | f :: _ => sfieldD rec f
    | [] => []
  | false, .tuple => match fields with
    | [] => []
    | [f] => sfieldD rec f
    | _ :: _ :: _ => [[.tuple ((fields.map (sfieldD rec)).map ofDnf)]]
  | false, .named => (flat.map (flatD rec)).foldl andDnf [[.obj ((fields.map (sfieldP rec)).map propT)]]
  | false, .unit => []

/-- The type of a field of a variant: `derive/src/impl_enum/field.rs:86-126`. -/
def vfieldD (f : Field) : Dnf := optD f.dflt (rec .inline f.ty)

/-- A property of a variant. -/
def vfieldP (f : Field) : Str × Bool × Dnf := (f.name, f.dflt, vfieldD rec f)

/-- The type of a unit variant: `derive/src/impl_enum/variant/unit_variant.rs:33-49`. -/
def unitD (tag : Tag) (name : Str) : TsType :=
  match tag with
  | .external => .str name
  | .internal t => .obj [(t, false, .str name)]
  | .adjacent t _ => .obj [(t, false, .str name)]
  | .untagged => .name [lit "null"]

/-- The tuple type of some fields. -/
def tupleFieldsD (fs : List Field) : Dnf :=
  match fs with
  | [f] => vfieldD rec f
  | fs => [[.tuple ((fs.map (vfieldD rec)).map ofDnf)]]

/-- The type of a tuple variant: `derive/src/impl_enum/variant/tuple_variant.rs:63-104`. -/
def tupleVariantD (tag : Tag) (v : Variant) : Dnf :=
  match v.kept with
  | [] => [[unitD tag v.name]]
  | f :: fs => match tag with
    | .external => [[.obj [(v.name, false, ofDnf (tupleFieldsD rec (f :: fs)))]]]
    | .internal _ => [[.obj [(v.name, false, ofDnf (tupleFieldsD rec (f :: fs)))]]]
    | .adjacent t c => [[.obj [(t, false, .str v.name), (c, false, ofDnf (tupleFieldsD rec (f :: fs)))]]]
    | .untagged => tupleFieldsD rec (f :: fs)

/-- The type of a struct variant: `derive/src/impl_enum/variant/struct_variant.rs:54-96`. -/
def structVariantD (tag : Tag) (v : Variant) : Dnf :=
  let props := (v.kept.map (vfieldP rec)).map propT
  match tag with
  | .external => [[.obj [(v.name, false, .obj props)]]]
  | .internal t => [[.obj ((t, false, .str v.name) :: props)]]
  | .adjacent t c => [[.obj [(t, false, .str v.name), (c, false, .obj props)]]]
  | .untagged => [[.obj props]]

/-- The type of a variant. -/
def variantD (tag : Tag) (v : Variant) : Dnf :=
  match v.style with
  | .unit => [[unitD tag v.name]]
  | .named => structVariantD rec tag v
  | .tuple => tupleVariantD rec tag v

/-- The type of an enum: `derive/src/impl_enum/mod.rs:176-197`. -/
def enumD (e : EnumDecl) : Dnf := (e.kept.map (variantD rec e.tag)).flatten

/-- The type of a declaration. -/
def declD : Decl → Dnf
  | .struct s => match s.from_.ty? with
    | some t => rec .inline t
    | none => structD rec s
  | .enum e => match e.from_.ty? with
    | some t => rec .typeDef t
    | none => enumD rec e

/-- What other types use for a declared type. -/
def declInlineD : Decl → Dnf
  | .struct s => match s.from_.ty? with
    | some t => rec .inline t
    | none => [[.name [s.ns, s.name]]]
  | .enum e => match e.from_.ty? with
    | some t => rec .inline t
    | none => [[.name [e.ns, e.name]]]

/-- One unfolding; mirrors `Schema.body`. -/
def tBody (P : Program) : Method → Ty → Dnf
  | m, .named i => match P[i]? with
    | some d => match m with
      | .typeDef => declD rec d
      | .inline => declInlineD rec d
      | _ => []
    | none => []
  | .inline, t => rec .typeDef t
  | .typeDef, .prim p => [[.name [p.typeDef]]]
  | .typeDef, .wrap _ t => rec .typeDef t
  | .typeDef, .option t => [[ofDnf (rec .typeDef t ++ undefD)]]
  | .typeDef, .vec t => [[.app [lit "Array"] [ofDnf (rec .typeDef t)]]]
  | .typeDef, .hashSet t => [[.app [lit "Set"] [ofDnf (rec .typeDef t)]]]
  | .typeDef, .hashMap k v => [[.app [lit "Map"] [ofDnf (rec .typeDef k), ofDnf (rec .typeDef v)]]]
  | .typeDef, .array _ t => rec .typeDef (.vec t)
  | .typeDef, .btreeSet t => rec .typeDef (.hashSet t)
  | .typeDef, .btreeMap k v => rec .typeDef (.hashMap k v)
  | .typeDef, .tuple ts => [[.tuple ((ts.map (rec .typeDef)).map ofDnf)]]
  | .typeDef, .result t e =>
      [[.obj [(lit "Ok", false, ofDnf (rec .typeDef t))]], [.obj [(lit "Err", false, ofDnf (rec .typeDef e))]]]
  | _, _ => []

end

/-- The type, computed to this depth. -/
def dOf (P : Program) : Nat → Method → Ty → Dnf
  | 0, _, _ => []
  | n + 1, m, t => tBody (dOf P n) P m t

end Verif.Ts
