import Verif.Spec.Sound
import Verif.Spec.TsTypes

/-!
# Types whose schema is strict about missing properties
-/

namespace Verif.Spec
open Verif Verif.Schema Verif.SchemaSpec

/-- `Result`s in the type, other than through a derived type, are not of something that may be missing. -/
inductive Strict (P : Program) : Ty → Prop where
  | prim (p : Prim) : Strict P (.prim p)
  | wrap (w : Wrapper) (t : Ty) : Strict P t → Strict P (.wrap w t)
  | option (t : Ty) : Strict P t → Strict P (.option t)
  | vec (t : Ty) : Strict P t → Strict P (.vec t)
  | array (n : Nat) (t : Ty) : Strict P t → Strict P (.array n t)
  | hashSet (t : Ty) : Strict P t → Strict P (.hashSet t)
  | btreeSet (t : Ty) : Strict P t → Strict P (.btreeSet t)
  | hashMap (k v : Ty) : Strict P k → Strict P v → Strict P (.hashMap k v)
  | btreeMap (k v : Ty) : Strict P k → Strict P v → Strict P (.btreeMap k v)
  | tuple (ts : List Ty) : (∀ t ∈ ts, Strict P t) → Strict P (.tuple ts)
  | result (t e : Ty) : Strict P t → Strict P e → NeverUndef P t → NeverUndef P e → Strict P (.result t e)
  | named (i : Nat) : Strict P (.named i)

/-- The fields that are written as properties either have a default, so that the property is optional, or do not
accept `undefined`. -/
def StrictFields (P : Program) (style : Style) (fs : List Field) : Prop :=
  ∀ f ∈ keptFields fs, Strict P f.ty ∧ (style = .named → f.dflt = true ∨ NeverUndef P f.ty)

/-- The condition on a declaration: on its fields, on those of its variants, or on the type it is read through. -/
def StrictDecl (P : Program) : Decl → Prop
  | .struct s => (∀ t, s.from_.ty? = some t → Strict P t) ∧
      StrictFields P (if s.transparent then .tuple else s.style) s.fields
  | .enum e => (∀ t, e.from_.ty? = some t → Strict P t) ∧
      ∀ v ∈ e.variants, v.skipDe = false → StrictFields P v.style v.fields ∧
        (e.tag ≠ .untagged → v.style = .tuple → ∀ f, keptFields v.fields = [f] → f.dflt = false ∧ NeverUndef P f.ty)

end Verif.Spec
