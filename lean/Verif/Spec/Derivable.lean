import Verif.Schema.Derive

/-!
# Which declarations `#[derive(Zod)]` accepts

Specification for C84. The documented limits (`tests/ui/zod/fail/*.stderr`): structs without fields, enums without
variants, and tuple structs with a default before a field without. Besides, attributes must be readable. Nothing else
should be refused.
-/

namespace Verif.SchemaSpec
open Verif Verif.Schema

/-- The fields that are read and are not flattened. -/
def ownFields (fs : List Field) : List Field := fs.filter (fun f => !f.skipDe && !f.flatten)

/-- The macro should refuse the declaration with this message. -/
inductive Reports : Decl → DeriveErr → Prop where
  /-- `struct S;` -/
  | unit (s : StructDecl) : s.style = .unit → Reports (.struct s) .unsupportedShape
  /-- `enum E {}`, or all variants are skipped -/
  | empty (e : EnumDecl) : (∀ v ∈ e.variants, v.skipDe = true) → Reports (.enum e) .emptyEnum
  /-- `struct S(.., #[serde(default)] A, .., B, ..);` -/
  | order (s : StructDecl) (a b c : List Field) (f g : Field) : s.style = .tuple → s.transparent = false →
      ownFields s.fields = a ++ f :: b ++ g :: c → f.dflt = true → g.dflt = false →
      Reports (.struct s) .nonDefaultAfterDefault

/-- The macro panics. -/
inductive Crashes : Decl → Prop where
  /-- a transparent struct without fields -/
  | transparent (s : StructDecl) : s.style ≠ .unit → s.transparent = true → ownFields s.fields = [] →
      Crashes (.struct s)
  /-- `struct S();`, or all fields are skipped -/
  | tuple (s : StructDecl) : s.style = .tuple → ownFields s.fields = [] → Crashes (.struct s)
  /-- `enum E { .., V {}, .. }`, or all fields of `V` are skipped -/
  | variant (e : EnumDecl) (v : Variant) : v ∈ e.variants → v.skipDe = false → v.style = .named →
      (∀ f ∈ v.fields, f.skipDe = true) → Crashes (.enum e)

end Verif.SchemaSpec
