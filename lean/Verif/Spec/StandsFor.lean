import Verif.Spec.Serde

/-!
# Types that stand for another type (specification)
-/

namespace Verif.Spec
open Verif Verif.Schema Verif.SchemaSpec

/-- The declared type is only another name for `t`: it is converted from `t`, or it is a struct around one field of this type. -/
inductive StandsFor (P : Program) : Nat → Ty → Prop where
  /-- `#[serde(from = "T")]` -/
  | from_ (i : Nat) (d : Decl) (t : Ty) : P[i]? = some d → Decl.from_ d = .from_ t → StandsFor P i t
  /-- `#[serde(try_from = "T")]` -/
  | tryFrom (i : Nat) (d : Decl) (t : Ty) : P[i]? = some d → Decl.from_ d = .tryFrom t → StandsFor P i t
  /-- `struct S(T);` -/
  | newtype (i : Nat) (s : StructDecl) (f : Field) : P[i]? = some (.struct s) → s.from_ = .none → s.transparent = false →
      s.style = .tuple → s.fields = [f] → f.skipDe = false → f.dflt = false → f.flatten = false → StandsFor P i f.ty
  /-- `#[serde(transparent)] struct S { f: T }` or `struct S(T);`, maybe with skipped fields -/
  | transparent (i : Nat) (s : StructDecl) (f : Field) : P[i]? = some (.struct s) → s.from_ = .none → s.transparent = true →
      keptFields s.fields = [f] → f.dflt = false → f.flatten = false → isPhantom f.ty = false → StandsFor P i f.ty

/-- The types are the same except that in some places, at any depth, a type is written for what it stands for, or the other way round. -/
inductive UpToAliases (P : Program) : Ty → Ty → Prop where
  | refl (t : Ty) : UpToAliases P t t
  | left (i : Nat) (t u : Ty) : StandsFor P i t → UpToAliases P t u → UpToAliases P (.named i) u
  | right (i : Nat) (t u : Ty) : StandsFor P i u → UpToAliases P t u → UpToAliases P t (.named i)
  | wrap (w : Wrapper) (t u : Ty) : UpToAliases P t u → UpToAliases P (.wrap w t) (.wrap w u)
  | option (t u : Ty) : UpToAliases P t u → UpToAliases P (.option t) (.option u)
  | vec (t u : Ty) : UpToAliases P t u → UpToAliases P (.vec t) (.vec u)
  | array (n : Nat) (t u : Ty) : UpToAliases P t u → UpToAliases P (.array n t) (.array n u)
  | hashSet (t u : Ty) : UpToAliases P t u → UpToAliases P (.hashSet t) (.hashSet u)
  | btreeSet (t u : Ty) : UpToAliases P t u → UpToAliases P (.btreeSet t) (.btreeSet u)
  | hashMap (k t u : Ty) : UpToAliases P t u → UpToAliases P (.hashMap k t) (.hashMap k u)
  | btreeMap (k t u : Ty) : UpToAliases P t u → UpToAliases P (.btreeMap k t) (.btreeMap k u)
  | tuple (l : List (Ty × Ty)) : (∀ p ∈ l, UpToAliases P p.1 p.2) → UpToAliases P (.tuple (l.map (·.1))) (.tuple (l.map (·.2)))
  | result (t u e f : Ty) : UpToAliases P t u → UpToAliases P e f → UpToAliases P (.result t e) (.result u f)

end Verif.Spec
