import Verif.Spec.StandsFor

/-!
# Writing a type instead of the alias for it (specification)
-/

namespace Verif.Spec
open Verif Verif.Schema Verif.SchemaSpec

/-- The type with `u` in all the places of the declared type `a`. -/
def expand (a : Nat) (u : Ty) : Ty → Ty
  | .prim p => .prim p
  | .wrap w t => .wrap w (expand a u t)
  | .option t => .option (expand a u t)
  | .vec t => .vec (expand a u t)
  | .array n t => .array n (expand a u t)
  | .hashSet t => .hashSet (expand a u t)
  | .btreeSet t => .btreeSet (expand a u t)
  | .hashMap k v => .hashMap (expand a u k) (expand a u v)
  | .btreeMap k v => .btreeMap (expand a u k) (expand a u v)
  | .tuple ts => .tuple (ts.attach.map (fun ⟨t, _⟩ => expand a u t))
  | .result t e => .result (expand a u t) (expand a u e)
  | .named i => if i = a then u else .named i

/-- The program with `u` in all the places of the declared type `a`, except in `into`, which only matters for what serde writes. -/
def expandAll (a : Nat) (u : Ty) (P : Program) : Program := P.map (Decl.mapTy (expand a u))

/-- The type does not mention the declared type `a`: putting another type in its place changes nothing. -/
def NotIn (a : Nat) (t : Ty) : Prop := ∀ u, expand a u t = t

end Verif.Spec
