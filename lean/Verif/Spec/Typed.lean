import Verif.Spec.Ser
import Verif.Spec.TsIntent

/-!
# Types whose values are written as values of their TypeScript type
-/

namespace Verif.Spec
open Verif Verif.Js Verif.Schema Verif.SchemaSpec Verif.Ts

/-- No object in the document has two members of the same name. -/
inductive DistinctKeys : Json → Prop where
  | null : DistinctKeys .null
  | bool (b : Bool) : DistinctKeys (.bool b)
  | num (n : JNum) : DistinctKeys (.num n)
  | str (s : Str) : DistinctKeys (.str s)
  | arr (js : List Json) : (∀ j ∈ js, DistinctKeys j) → DistinctKeys (.arr js)
  | obj (kvs : List (Str × Json)) : (kvs.map (·.1)).Nodup → (∀ p ∈ kvs, DistinctKeys p.2) → DistinctKeys (.obj kvs)

/-- No `Option` (`None` is written as `null`), no sets and maps, no `PhantomData` or `Weak`; floating point
numbers only if those that are not finite are left out. -/
inductive Typed (odd : Bool) : Ty → Prop where
  | prim (p : Prim) : (floatPrim p → odd = false) → Typed odd (.prim p)
  | wrap (w : Wrapper) (t : Ty) : w ≠ .phantomData → w ≠ .weak → Typed odd t → Typed odd (.wrap w t)
  | vec (t : Ty) : Typed odd t → Typed odd (.vec t)
  | array (n : Nat) (t : Ty) : Typed odd t → Typed odd (.array n t)
  | tuple (ts : List Ty) : (∀ t ∈ ts, Typed odd t) → Typed odd (.tuple ts)
  | result (t e : Ty) : Typed odd t → Typed odd e → Typed odd (.result t e)
  | named (i : Nat) : Typed odd (.named i)

/-- All fields of a struct or variant with named fields are always written. -/
def AlwaysWritten (fs : List Field) : Prop :=
  ∀ f ∈ keptFields fs, f.skipSer = false ∧ f.skipIfNone = false ∧ f.skipIf = false

/-- Types without optional properties, other than in properties: where one is flattened, the members around
it cannot be taken for a missing one. -/
inductive Solid (P : Program) : Ty → Prop where
  | wrap (w : Wrapper) (t : Ty) : Solid P t → Solid P (.wrap w t)
  | result (t e : Ty) : Solid P (.result t e)
  | into (i : Nat) (d : Decl) (t : Ty) : P[i]? = some d → Decl.into d = some t → Solid P t → Solid P (.named i)
  | newtype (i : Nat) (s : StructDecl) (f : Field) : P[i]? = some (.struct s) → s.into = none →
      s.transparent = true ∨ s.style = .tuple → keptFields s.fields = [f] → Solid P f.ty → Solid P (.named i)
  | struct (i : Nat) (s : StructDecl) : P[i]? = some (.struct s) → s.into = none → s.transparent = false →
      s.style = .named → AlwaysWritten s.fields → Solid P (.named i)
  | enum (i : Nat) (e : EnumDecl) : P[i]? = some (.enum e) → e.into = none →
      (∀ v ∈ e.variants, v.style = .named → e.tag = .untagged ∨ (∃ t, e.tag = .internal t) →
        AlwaysWritten v.fields) →
      (∀ v ∈ e.variants, v.style = .tuple → e.tag = .untagged → ∀ f, keptFields v.fields = [f] →
        Solid P f.ty) →
      Solid P (.named i)

/-- The members the fields are written to are named like the fields, and no field is flattened. -/
def PlainNames (fs : List Field) : Prop :=
  ((serFields fs).map (·.serName)).Nodup ∧ ∀ g ∈ serFields fs, g.flatten = false

/-- A named field that is read. `lenient`: properties that are not optional may be missing if they allow
`undefined`. -/
def TypedField (P : Program) (odd lenient : Bool) (fs : List Field) (f : Field) : Prop :=
  -- never written, and optional
  (f.skipSer = true ∧ f.flatten = false ∧ f.dflt = true ∧ PlainNames fs ∧ f.name ∉ (serFields fs).map (·.serName)) ∨
  -- always written
  (f.skipSer = false ∧ f.flatten = false ∧ f.serName = f.name ∧ f.skipIfNone = false ∧ f.skipIf = false ∧
    Typed odd f.ty) ∨
  -- not written if `None`
  (f.skipSer = false ∧ f.flatten = false ∧ f.serName = f.name ∧ f.skipIfNone = true ∧ f.skipIf = false ∧
    (∃ t, f.ty = .option t ∧ Typed odd t) ∧ (f.dflt = true ∨ lenient = true) ∧ PlainNames fs) ∨
  -- not written in some cases, and optional
  (f.skipSer = false ∧ f.flatten = false ∧ f.serName = f.name ∧ f.skipIfNone = false ∧ f.skipIf = true ∧
    Typed odd f.ty ∧ f.dflt = true ∧ PlainNames fs) ∨
  -- flattened
  (f.skipSer = false ∧ f.flatten = true ∧ f.skipIfNone = false ∧ f.skipIf = false ∧ Typed odd f.ty ∧ Solid P f.ty)

/-- The fields of a struct or variant. -/
def TypedFields (P : Program) (odd lenient : Bool) : Style → List Field → Prop
  | .tuple, fs => ((fs.length = 1 ∧ (keptFields fs).length = 1) ∨ (fs.length ≠ 1 ∧ 2 ≤ (keptFields fs).length)) ∧
      (∀ f ∈ fs, f.skipSer = f.skipDe) ∧ ∀ f ∈ keptFields fs, Typed odd f.ty ∧ (fs.length ≠ 1 → f.skipIf = false)
  | .named, fs => ∀ f ∈ keptFields fs, TypedField P odd lenient fs f
  | .unit, fs => keptFields fs = []

/-- A variant that is written can be read, under the same name; its fields are not flattened. -/
def TypedVariant (P : Program) (odd lenient : Bool) (tag : Tag) (v : Variant) : Prop :=
  v.skipDe = false ∧ v.serName = v.name ∧ TypedFields P odd lenient (serStyle v) v.fields ∧
  (∀ f ∈ v.fields, f.flatten = false) ∧
  match tag with
  | .internal t => serStyle v ≠ .tuple ∧ t ∉ (keptFields v.fields).map (·.name)
  | .adjacent t c => t ≠ c
  | _ => True

/-- Declarations that are written through another type are also read through it. -/
def TypedDecl (P : Program) (odd lenient : Bool) : Decl → Prop
  | .struct s => match s.into with
    | some t => s.from_.ty? = some t ∧ Typed odd t
    | none => s.from_.ty? = none ∧
      if s.transparent then ∃ f, keptFields s.fields = [f] ∧ serFields s.fields = [f] ∧ Typed odd f.ty
      else TypedFields P odd lenient s.style s.fields
  | .enum e => match e.into with
    | some t => e.from_.ty? = some t ∧ Typed odd t
    | none => e.from_.ty? = none ∧ ∀ v ∈ e.variants, v.skipSer = false → TypedVariant P odd lenient e.tag v

end Verif.Spec
