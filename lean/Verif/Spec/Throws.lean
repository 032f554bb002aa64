import Verif.Spec.Schema
import Verif.Zod.Schema

/-!
# Schemas whose construction does not throw

Conditions on types and declarations under which evaluating the generated schema text does not throw.
-/

namespace Verif.Spec
open Verif Verif.Schema Verif.SchemaSpec

/-- `bool` does not occur in the type (derived types it refers to aside). -/
def noBool : Ty → Bool
  | .prim .bool => false
  | .prim _ => true
  | .wrap _ t => noBool t
  | .option t => noBool t
  | .vec t => noBool t
  | .array _ t => noBool t
  | .hashSet t => noBool t
  | .btreeSet t => noBool t
  | .hashMap k v => noBool k && noBool v
  | .btreeMap k v => noBool k && noBool v
  | .tuple ts => noBools ts
  | .result t e => noBool t && noBool e
  | .named _ => true
where
  noBools : List Ty → Bool
    | [] => true
    | t :: r => noBool t && noBools r

/-- Property keys: no repetition, and not `__proto__`. -/
def goodKeys (ks : List Str) : Prop := ks.Nodup ∧ lit "__proto__" ∉ ks

/-- The names of the fields that are not skipped. -/
def keptNames (fs : List Field) : List Str := (fs.filter (fun f => !f.skipDe)).map (·.name)

/-- A variant whose schema can be constructed. -/
def OkVariant (tag : Tag) (v : Variant) : Prop :=
  (v.style = .named → goodKeys (keptNames v.fields)) ∧
  match tag with
  | .external => v.name ≠ lit "__proto__"
  | .internal t => goodKeys [t] ∧ v.name ≠ lit "__proto__" ∧ (v.style = .named → t ∉ keptNames v.fields)
  | .adjacent t c => goodKeys [t, c]
  | .untagged => True

/-- Two variants or more of an internally tagged enum: none of them is a tuple variant with a payload. -/
def NoTaggedTuple (e : EnumDecl) : Prop :=
  match e.tag with
  | .internal _ => (e.variants.filter (fun v => !v.skipDe)).length ≤ 1 ∨
      ∀ v ∈ e.variants, v.skipDe = false → v.style = .tuple → fieldTypes v.fields = []
  | _ => True

/-- The names of the variants that are not skipped are different. -/
def DistinctVariants (e : EnumDecl) : Prop :=
  ((e.variants.filter (fun v => !v.skipDe)).map (·.name)).Nodup

/-- A declaration whose schema can be constructed. -/
def NoThrow (d : Decl) : Prop :=
  (∀ t ∈ declTypes d, noBool t = true) ∧
  match d with
  | .struct s => s.transparent = false → s.style = .named →
      goodKeys (keptNames (s.fields.filter (fun f => !f.flatten)))
  | .enum e => (∀ v ∈ e.variants, v.skipDe = false → OkVariant e.tag v) ∧ NoTaggedTuple e ∧
      DistinctVariants e

/-! ## Exactly -/

/-- The types that occur in the schema of a declaration: with `from` / `try_from` that one, otherwise those of the fields
that are not skipped. -/
def schemaTypes (d : Decl) : List Ty :=
  match d with
  | .struct s => match s.from_.ty? with
    | some t => [t]
    | none => fieldTypes s.fields
  | .enum e => match e.from_.ty? with
    | some t => [t]
    | none => ((e.variants.filter (fun v => !v.skipDe)).map (fun v => fieldTypes v.fields)).flatten

/-- No object in the schema has a property twice, or one called `__proto__`. -/
def KeysOk : Decl → Prop
  | .struct s => s.from_.ty? = none → s.transparent = false → s.style = .named →
      goodKeys (keptNames (s.fields.filter (fun f => !f.flatten)))
  | .enum e => e.from_.ty? = none → ∀ v ∈ e.variants, v.skipDe = false → OkVariant e.tag v

/-- An enum of at least two variants with a tag: no payloads in tuple variants if the tag is internal, and no two
variants have the same name. -/
def Discriminated (e : EnumDecl) : Prop :=
  e.from_.ty? = none → 2 ≤ (e.variants.filter (fun v => !v.skipDe)).length →
    match e.tag with
    | .internal _ => (∀ v ∈ e.variants, v.skipDe = false → v.style = .tuple → fieldTypes v.fields = []) ∧ DistinctVariants e
    | .adjacent _ _ => DistinctVariants e
    | _ => True

/-- The schema of the declaration can be constructed. -/
def Constructs (d : Decl) : Prop :=
  (∀ t ∈ schemaTypes d, noBool t = true) ∧ ∀ e, d = .enum e → Discriminated e

/-- No variant of an internally tagged enum has the name of the tag. -/
def TagIsNoVariant (d : Decl) : Prop :=
  ∀ e t, d = .enum e → e.tag = .internal t → ∀ v ∈ e.variants, v.name ≠ t

end Verif.Spec
