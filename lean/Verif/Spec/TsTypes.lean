import Verif.Spec.Names
import Verif.Spec.Schema
import Verif.Ts.Parser
import Verif.Js.Value

/-!
# Values of TypeScript types

Which JavaScript values inhabit a TypeScript type.
-/

namespace Verif.Spec
open Verif Verif.Js Verif.Schema Verif.SchemaSpec Verif.Ts

/-- The namespaces can be used in types. -/
def GoodTypeNames (P : Program) : Prop := ∀ d ∈ P, typeOperators.contains d.ns = false

/-- The declared types. -/
abbrev TsEnv := Str → Str → Option TsType

/-- `v` inhabits the type. A property of the type that the object does not have must be optional; if `lenient`,
it counts as a property with the value `undefined`. Properties that are not mentioned are allowed. Only plain
objects inhabit object types (TypeScript would also allow arrays, strings and so on that happen to have the
properties). -/
inductive Inhabits (D : TsEnv) (lenient : Bool) : TsType → JsVal → Prop where
  | string (s : Str) : Inhabits D lenient (.name [lit "string"]) (.str s)
  | badString (n : Nat) : Inhabits D lenient (.name [lit "string"]) (.badStr n)
  | number (x : JsNum) : Inhabits D lenient (.name [lit "number"]) (.num x)
  | boolean (b : Bool) : Inhabits D lenient (.name [lit "boolean"]) (.bool b)
  | null : Inhabits D lenient (.name [lit "null"]) .null
  | undefined : Inhabits D lenient (.name [lit "undefined"]) .undefined
  | literal (s : Str) : Inhabits D lenient (.str s) (.str s)
  | ref (ns name : Str) (t : TsType) (v : JsVal) : D ns name = some t → Inhabits D lenient t v →
      Inhabits D lenient (.name [ns, name]) v
  | array (t : TsType) (l : List JsVal) : (∀ x ∈ l, Inhabits D lenient t x) →
      Inhabits D lenient (.app [lit "Array"] [t]) (.arr l)
  | set (t : TsType) (l : List JsVal) : (∀ x ∈ l, Inhabits D lenient t x) →
      Inhabits D lenient (.app [lit "Set"] [t]) (.set l)
  | map (t u : TsType) (l : List (JsVal × JsVal)) : (∀ p ∈ l, Inhabits D lenient t p.1) →
      (∀ p ∈ l, Inhabits D lenient u p.2) → Inhabits D lenient (.app [lit "Map"] [t, u]) (.map l)
  | tuple (ts : List TsType) (l : List JsVal) : l.length = ts.length →
      (∀ (i : Nat) t x, ts[i]? = some t → l[i]? = some x → Inhabits D lenient t x) → Inhabits D lenient (.tuple ts) (.arr l)
  | obj (ps : List (Str × Bool × TsType)) (kvs : List (Str × JsVal)) :
      (∀ p ∈ ps, objHas kvs p.1 = true → Inhabits D lenient p.2.2 (objGet kvs p.1)) →
      (∀ p ∈ ps, objHas kvs p.1 = false → p.2.1 = false → lenient = true) →
      (∀ p ∈ ps, objHas kvs p.1 = false → p.2.1 = false → Inhabits D lenient p.2.2 .undefined) →
      Inhabits D lenient (.obj ps) (.obj kvs)
  | union (ts : List TsType) (t : TsType) (v : JsVal) : t ∈ ts → Inhabits D lenient t v →
      Inhabits D lenient (.union ts) v
  | inter (ts : List TsType) (v : JsVal) : (∀ t ∈ ts, Inhabits D lenient t v) → Inhabits D lenient (.inter ts) v

/-- The types of the module generated for the program: `NS.NAME` is what the text `type_def()` returns for the
declaration of that name is read as. -/
def IsTsModule (P : Program) (D : TsEnv) : Prop :=
  ∀ i d, P[i]? = some d → ∃ s, Returns P .typeDef (.named i) s ∧ D d.ns d.name = readType s

end Verif.Spec
