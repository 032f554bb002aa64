import Verif.Spec.Reorder

/-!
# Programs whose variants are in another order (specification)
-/

namespace Verif.Spec
open Verif Verif.Js Verif.Schema Verif.SchemaSpec Verif.Zod

/-- The declaration with its named fields in another order or, if it is an enum whose representation is one of `T`, with
its variants in another order. -/
inductive ShuffledDecl (T : Tag → Prop) : Decl → Decl → Prop where
  | fields {d d' : Decl} : ReorderedDecl d d' → ShuffledDecl T d d'
  | variants (e : EnumDecl) (vs : List Variant) : T e.tag → e.variants.Perm vs → ShuffledDecl T (.enum e) (.enum { e with variants := vs })

/-- The program with declarations changed in this way. -/
def ShuffledProgram (T : Tag → Prop) (P P' : Program) : Prop := All2 (ShuffledDecl T) P P'

/-- The representations whose schema is a discriminated union: internally and adjacently tagged enums. -/
def HasTag (tag : Tag) : Prop := (∃ t, tag = .internal t) ∨ ∃ t c, tag = .adjacent t c

end Verif.Spec
