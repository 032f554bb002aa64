import Verif.Spec.Serde
import Verif.Zod.Parse

/-!
# Validation that terminates
-/

namespace Verif.Spec
open Verif Verif.Js Verif.Schema Verif.SchemaSpec

/-- Validating a value against `t` starts with validating the same value against `u`. -/
inductive SameValue (P : Program) : Ty → Ty → Prop where
  | wrap (w : Wrapper) (t : Ty) : SameValue P (.wrap w t) t
  | option (t : Ty) : SameValue P (.option t) t
  | from_ (i : Nat) (d : Decl) (t : Ty) : P[i]? = some d → (Decl.from_ d).ty? = some t → SameValue P (.named i) t
  | struct (i : Nat) (s : StructDecl) (f : Field) : P[i]? = some (.struct s) → s.from_.ty? = none →
      s.transparent = true ∨ s.style = .tuple → keptFields s.fields = [f] → SameValue P (.named i) f.ty
  | untagged (i : Nat) (e : EnumDecl) (v : Variant) (f : Field) : P[i]? = some (.enum e) →
      e.from_.ty? = none → e.tag = .untagged → v ∈ e.variants → v.skipDe = false → v.style = .tuple →
      keptFields v.fields = [f] → SameValue P (.named i) f.ty

/-- No derived type is validated by validating the same value against itself, again and again. -/
def Guarded (P : Program) : Prop := ∀ i, ¬ Endless (SameValue P) (.named i)

end Verif.Spec
