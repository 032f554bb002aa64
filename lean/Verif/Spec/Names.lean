import Verif.Schema.Types
import Verif.Js.Parser

/-!
# Names that can be written into JavaScript

The generated code inserts names unchanged, so they must be identifiers where a property key or reference is
written, and free of quotes, backslashes and line breaks where a string literal is written.
-/

namespace Verif.Spec
open Verif Verif.Js Verif.Schema

/-- A namespace name that can be referred to: an identifier, not a reserved word, and not zod's own `z`. -/
def goodNs (ns : Str) : Bool := isIdent ns && !reserved.contains ns && ns != lit "z"

/-- Tag and content names are property keys. -/
def goodTag : Tag → Bool
  | .external => true
  | .internal t => isIdent t
  | .adjacent t c => isIdent t && isIdent c
  | .untagged => true

/-- A variant name is written as a property key around the payload of an externally tagged variant (and, by
the code, of an internally tagged tuple variant), and otherwise as a string literal. -/
def keyed (tag : Tag) (style : Style) : Bool :=
  match tag, style with
  | .external, .named => true
  | .external, .tuple => true
  | .internal _, .tuple => true
  | _, _ => false

/-- The name of a variant is an identifier if it is written as a key, and can stand in a string literal otherwise; the names of its fields are identifiers. -/
def goodVariant (tag : Tag) (v : Variant) : Bool :=
  (if keyed tag v.style then isIdent v.name else isQuotable v.name) &&
    (v.style != .named || v.fields.all (fun f => f.skipDe || isIdent f.name))

/-- The names of a declaration that are written into the generated code. Skipped fields and variants do not
matter. -/
def goodDecl : Decl → Bool
  | .struct s => goodNs s.ns && isIdent s.name &&
      s.fields.all (fun f => f.skipDe || !f.named || isIdent f.name)
  | .enum e => goodNs e.ns && isIdent e.name && goodTag e.tag &&
      e.variants.all (fun v => v.skipDe || goodVariant e.tag v)

/-- All names of the program can be written into JavaScript. -/
def GoodNames (P : Program) : Prop := ∀ d ∈ P, goodDecl d = true

/-- The fields of a struct with named fields have names and those of a tuple struct do not (true of every
Rust program; the model stores the style and the fields separately). -/
def wellStyled : Decl → Bool
  | .struct s => match s.style with
    | .named => s.fields.all (·.named)
    | _ => s.fields.all (fun f => !f.named)
  | .enum _ => true

/-- All declarations are well styled. -/
def WellStyled (P : Program) : Prop := ∀ d ∈ P, wellStyled d = true

end Verif.Spec
