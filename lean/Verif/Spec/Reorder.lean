import Verif.Spec.Wrappers

/-!
# Programs whose fields are in another order (specification)
-/

namespace Verif.Spec
open Verif Verif.Js Verif.Schema Verif.SchemaSpec Verif.Zod

/-- The variant, or if it has named fields, the variant with these in another order. -/
inductive ReorderedVariant : Variant → Variant → Prop where
  | same (v : Variant) : ReorderedVariant v v
  | fields (v : Variant) (fs : List Field) : v.style = .named → v.fields.Perm fs → ReorderedVariant v { v with fields := fs }

/-- The declaration, with named fields of a struct or of variants of an enum in another order. -/
inductive ReorderedDecl : Decl → Decl → Prop where
  | same (d : Decl) : ReorderedDecl d d
  | struct (s : StructDecl) (fs : List Field) : s.transparent = false → s.style = .named → s.fields.Perm fs →
      ReorderedDecl (.struct s) (.struct { s with fields := fs })
  | enum (e : EnumDecl) (vs : List Variant) : All2 ReorderedVariant e.variants vs →
      ReorderedDecl (.enum e) (.enum { e with variants := vs })

/-- The program with named fields in another order. -/
def ReorderedProgram (P P' : Program) : Prop := All2 ReorderedDecl P P'

/-- The flattened fields of a struct, in their order. -/
def flattenedFields : Decl → List Field
  | .struct s => s.fields.filter (·.flatten)
  | .enum _ => []

/-- The structs of both programs have the same flattened fields in the same order. -/
def SameFlattened (P P' : Program) : Prop := P.map flattenedFields = P'.map flattenedFields

/-- The same value up to the order of properties in objects. -/
inductive SameProps : JsVal → JsVal → Prop where
  | same (v : JsVal) : SameProps v v
  | arr (l : List (JsVal × JsVal)) : (∀ p ∈ l, SameProps p.1 p.2) → SameProps (.arr (l.map (·.1))) (.arr (l.map (·.2)))
  | set (l : List (JsVal × JsVal)) : (∀ p ∈ l, SameProps p.1 p.2) → SameProps (.set (l.map (·.1))) (.set (l.map (·.2)))
  | map (ks vs : List (JsVal × JsVal)) : (∀ p ∈ ks, SameProps p.1 p.2) → (∀ p ∈ vs, SameProps p.1 p.2) →
      SameProps (.map ((ks.map (·.1)).zip (vs.map (·.1)))) (.map ((ks.map (·.2)).zip (vs.map (·.2))))
  | obj (l : List (Str × JsVal × JsVal)) (o : List (Str × JsVal)) : (∀ p ∈ l, SameProps p.2.1 p.2.2) →
      (l.map (fun p => (p.1, p.2.2))).Perm o → SameProps (.obj (l.map (fun p => (p.1, p.2.1)))) (.obj o)

/-- Both still running, both an error, or both a result, which are the same up to the order of properties. -/
inductive SameOutcome : Res JsVal → Res JsVal → Prop where
  | running : SameOutcome none none
  | error : SameOutcome (some none) (some none)
  | result {r r' : JsVal} : SameProps r r' → SameOutcome (some (some r)) (some (some r'))

end Verif.Spec
