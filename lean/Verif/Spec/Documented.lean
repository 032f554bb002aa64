import Verif.Spec.Sound
import Verif.Codegen.Rpc

/-!
# Programs with other documentation (specification)
-/

namespace Verif.Spec
open Verif Verif.Js Verif.Schema Verif.Codegen

/-- The same declaration with other attributes that are not serde's (documentation). -/
inductive RedocumentedDecl : Decl → Decl → Prop where
  | struct (s : StructDecl) (attrs : List Derive.Attr) : RedocumentedDecl (.struct s) (.struct { s with attrs := attrs })
  | enum (e : EnumDecl) (attrs : List Derive.Attr) : RedocumentedDecl (.enum e) (.enum { e with attrs := attrs })

/-- The same declarations with other documentation. -/
def Redocumented (P P' : Program) : Prop := All2 RedocumentedDecl P P'

/-- The attributes of all declarations can be read. -/
def ReadableAttrs (P : Program) : Prop := ∀ d ∈ P, Derive.Attr.unparsable ∉ d.attrs

/-- What two builds register differs in documentation only. -/
structure SameButDocs (r r' : Registry) : Prop where
  members : All2 (fun m m' : Member => m'.ns = m.ns ∧ m'.name = m.name ∧ m'.schema = m.schema ∧ m'.typeDef = m.typeDef) r.members r'.members
  rpc : r'.rpc = r.rpc

end Verif.Spec
