import Verif.Spec.Sound
import Verif.Spec.Throws
import Verif.Spec.Wrappers

/-!
# Validating what was validated (specification)
-/

namespace Verif.Spec
open Verif Verif.Js Verif.Schema Verif.SchemaSpec Verif.Zod

/-- Validating `r` changes nothing: it is not rejected, and nothing but `r` itself is returned. -/
def Unchanged (E : ZEnv) (z : ZSchema) (r : JsVal) : Prop := ¬ Rejects E z r ∧ ∀ r', ParsesTo E z r r' → r' = r

/-- Types in which no `Result` has a first case that is accepted when it is missing, as `Result<Option<T>, E>` has. -/
inductive SteadyTy (P : Program) : Ty → Prop where
  | prim (p : Prim) : SteadyTy P (.prim p)
  | wrap (w : Wrapper) (t : Ty) : SteadyTy P t → SteadyTy P (.wrap w t)
  | option (t : Ty) : SteadyTy P t → SteadyTy P (.option t)
  | vec (t : Ty) : SteadyTy P t → SteadyTy P (.vec t)
  | array (n : Nat) (t : Ty) : SteadyTy P t → SteadyTy P (.array n t)
  | hashSet (t : Ty) : SteadyTy P t → SteadyTy P (.hashSet t)
  | btreeSet (t : Ty) : SteadyTy P t → SteadyTy P (.btreeSet t)
  | hashMap (k v : Ty) : SteadyTy P k → SteadyTy P v → SteadyTy P (.hashMap k v)
  | btreeMap (k v : Ty) : SteadyTy P k → SteadyTy P v → SteadyTy P (.btreeMap k v)
  | tuple (ts : List Ty) : (∀ t ∈ ts, SteadyTy P t) → SteadyTy P (.tuple ts)
  | result (t e : Ty) : SteadyTy P t → SteadyTy P e → NeverUndef P t → SteadyTy P (.result t e)
  | named (i : Nat) : SteadyTy P (.named i)

/-- Enums whose cases cannot be mistaken for each other: if there is more than one case, the enum is tagged, and the
cases of an externally tagged one have different names and are not accepted when they are missing. -/
def SteadyEnum (P : Program) (e : EnumDecl) : Prop :=
  e.from_.ty? = none → 2 ≤ (e.variants.filter (fun v => !v.skipDe)).length →
    e.tag ≠ .untagged ∧ (e.tag = .external → DistinctVariants e ∧
      ∀ v ∈ e.variants, v.skipDe = false → v.style = .tuple → ∀ f, keptFields v.fields = [f] → f.dflt = false ∧ NeverUndef P f.ty)

/-- The condition on a declaration: on the types of its fields and, for enums, on its variants. -/
def SteadyDecl (P : Program) (d : Decl) : Prop :=
  (∀ t ∈ declTypes d, SteadyTy P t) ∧ ∀ e, d = .enum e → SteadyEnum P e

end Verif.Spec
