import Verif.Spec.TsTypes
import Verif.Spec.Serde

/-!
# The TypeScript type meant for a Rust type

As a tree, so that operator precedence plays no role.
-/

namespace Verif.Spec
open Verif Verif.Js Verif.Schema Verif.SchemaSpec Verif.Ts

/-- `undefined` -/
def undefinedT : TsType := .name [lit "undefined"]

/-- The TypeScript type that goes with a primitive type. -/
def primT : Prim → TsType
  | .bool => .name [lit "boolean"]
  | .unit => .name [lit "null"]
  | .string | .strRef | .char | .ipv4 | .ipv6 | .ip | .smolStr => .name [lit "string"]
  | _ => .name [lit "number"]

/-- A field with a default may be missing. -/
def orUndefined (dflt : Bool) (T : TsType) : TsType := if dflt then .union [T, undefinedT] else T

/-- The elements for fields without names. -/
def elemsT (fs : List Field) (Ts : List TsType) : List TsType :=
  List.zipWith (fun f T => orUndefined f.dflt T) fs Ts

/-- The properties for fields with names. -/
def propsT (fs : List Field) (Ts : List TsType) : List (Str × Bool × TsType) :=
  List.zipWith (fun f T => (f.name, f.dflt, orUndefined f.dflt T)) fs Ts

/-- One unnamed field stands for itself. -/
def payloadT (fs : List Field) (Ts : List TsType) : TsType :=
  match elemsT fs Ts with
  | [T] => T
  | l => .tuple l

/-- The TypeScript type that goes with a unit variant. -/
def unitT (tag : Tag) (name : Str) : TsType :=
  match tag with
  | .external => .str name
  | .internal t => .obj [(t, false, .str name)]
  | .adjacent t _ => .obj [(t, false, .str name)]
  | .untagged => .name [lit "null"]

/-- A variant with the fields `fs` of the types `Ts`. (That an internally tagged variant with unnamed fields is
written like an externally tagged one is not what serde does, see C13 and C51; here the point is how the operators
are grouped.) -/
def variantT (tag : Tag) (v : Variant) (fs : List Field) (Ts : List TsType) : TsType :=
  match v.style, fs with
  | .unit, _ => unitT tag v.name
  | .tuple, [] => unitT tag v.name
  | .tuple, fs => match tag with
    | .external => .obj [(v.name, false, payloadT fs Ts)]
    | .internal _ => .obj [(v.name, false, payloadT fs Ts)]
    | .adjacent t c => .obj [(t, false, .str v.name), (c, false, payloadT fs Ts)]
    | .untagged => payloadT fs Ts
  | .named, fs => match tag with
    | .external => .obj [(v.name, false, .obj (propsT fs Ts))]
    | .internal t => .obj ((t, false, .str v.name) :: propsT fs Ts)
    | .adjacent t c => .obj [(t, false, .str v.name), (c, false, .obj (propsT fs Ts))]
    | .untagged => .obj (propsT fs Ts)

/-- The type `T` is meant for the Rust type `t`; `use_`: where another type mentions it, so a derived type is
referred to by name. -/
inductive Means (P : Program) : Bool → Ty → TsType → Prop where
  | prim (use_ : Bool) (p : Prim) : Means P use_ (.prim p) (primT p)
  | wrap (use_ : Bool) (w : Wrapper) (t : Ty) (T : TsType) : Means P false t T → Means P use_ (.wrap w t) T
  | option (use_ : Bool) (t : Ty) (T : TsType) : Means P false t T →
      Means P use_ (.option t) (.union [T, undefinedT])
  | vec (use_ : Bool) (t : Ty) (T : TsType) : Means P false t T → Means P use_ (.vec t) (.app [lit "Array"] [T])
  | array (use_ : Bool) (n : Nat) (t : Ty) (T : TsType) : Means P false t T →
      Means P use_ (.array n t) (.app [lit "Array"] [T])
  | hashSet (use_ : Bool) (t : Ty) (T : TsType) : Means P false t T →
      Means P use_ (.hashSet t) (.app [lit "Set"] [T])
  | btreeSet (use_ : Bool) (t : Ty) (T : TsType) : Means P false t T →
      Means P use_ (.btreeSet t) (.app [lit "Set"] [T])
  | hashMap (use_ : Bool) (k v : Ty) (K V : TsType) : Means P false k K → Means P false v V →
      Means P use_ (.hashMap k v) (.app [lit "Map"] [K, V])
  | btreeMap (use_ : Bool) (k v : Ty) (K V : TsType) : Means P false k K → Means P false v V →
      Means P use_ (.btreeMap k v) (.app [lit "Map"] [K, V])
  | tuple (use_ : Bool) (ts : List Ty) (Ts : List TsType) : ts.length = Ts.length →
      (∀ (i : Nat) t T, ts[i]? = some t → Ts[i]? = some T → Means P false t T) →
      Means P use_ (.tuple ts) (.tuple Ts)
  | result (use_ : Bool) (t e : Ty) (T E : TsType) : Means P false t T → Means P false e E →
      Means P use_ (.result t e) (.union [.obj [(lit "Ok", false, T)], .obj [(lit "Err", false, E)]])
  /-- a derived type is referred to by name -/
  | ref (i : Nat) (d : Decl) : P[i]? = some d → NoFrom d → Means P true (.named i) (.name [d.ns, d.name])
  /-- `from` and `try_from` delegate to another type -/
  | structFrom (use_ : Bool) (i : Nat) (s : StructDecl) (t : Ty) (T : TsType) : P[i]? = some (.struct s) →
      s.from_.ty? = some t → Means P true t T → Means P use_ (.named i) T
  | enumFrom (use_ : Bool) (i : Nat) (e : EnumDecl) (t : Ty) (T : TsType) : P[i]? = some (.enum e) →
      e.from_.ty? = some t → Means P use_ t T → Means P use_ (.named i) T
  | newtype (i : Nat) (s : StructDecl) (f : Field) (T : TsType) : P[i]? = some (.struct s) →
      s.from_.ty? = none → s.transparent = true ∨ s.style = .tuple → keptFields s.fields = [f] →
      Means P true f.ty T → Means P false (.named i) (orUndefined f.dflt T)
  | tupleStruct (i : Nat) (s : StructDecl) (Ts : List TsType) : P[i]? = some (.struct s) →
      s.from_.ty? = none → s.transparent = false → s.style = .tuple → 2 ≤ (keptFields s.fields).length →
      (keptFields s.fields).length = Ts.length →
      (∀ (j : Nat) f T, (keptFields s.fields)[j]? = some f → Ts[j]? = some T → Means P true f.ty T) →
      Means P false (.named i) (.tuple (elemsT (keptFields s.fields) Ts))
  /-- an object type, and all flattened types at the same time -/
  | namedStruct (i : Nat) (s : StructDecl) (Ts Us : List TsType) : P[i]? = some (.struct s) →
      s.from_.ty? = none → s.transparent = false → s.style = .named →
      ((keptFields s.fields).filter (fun f => !f.flatten)).length = Ts.length →
      (∀ (j : Nat) f T, ((keptFields s.fields).filter (fun f => !f.flatten))[j]? = some f → Ts[j]? = some T →
        Means P true f.ty T) →
      ((keptFields s.fields).filter (fun f => f.flatten)).length = Us.length →
      (∀ (j : Nat) f T, ((keptFields s.fields).filter (fun f => f.flatten))[j]? = some f → Us[j]? = some T →
        Means P true f.ty T) →
      Means P false (.named i) (.inter (.obj (propsT ((keptFields s.fields).filter (fun f => !f.flatten)) Ts) ::
        elemsT ((keptFields s.fields).filter (fun f => f.flatten)) Us))
  /-- one of the variants -/
  | enum (i : Nat) (e : EnumDecl) (Tss : List (List TsType)) : P[i]? = some (.enum e) → e.from_.ty? = none →
      e.kept.length = Tss.length →
      (∀ (j : Nat) v Ts, e.kept[j]? = some v → Tss[j]? = some Ts → (keptFields v.fields).length = Ts.length) →
      (∀ (j : Nat) v Ts, e.kept[j]? = some v → Tss[j]? = some Ts →
        ∀ (k : Nat) f T, (keptFields v.fields)[k]? = some f → Ts[k]? = some T → Means P true f.ty T) →
      Means P false (.named i) (.union (List.zipWith (fun v Ts => variantT e.tag v (keptFields v.fields) Ts) e.kept Tss))

/-- The two types have the same values, whatever the declared types are. -/
def SameValues (T U : TsType) : Prop := ∀ D lenient v, Inhabits D lenient T v ↔ Inhabits D lenient U v

/-- Behind `&` the text is not one operand: `null & A | B` is a union (`null & (A | B)` is not). -/
def FallsApart (text : Str) : Prop := ∃ ts, readType (lit "null & " ++ text) = some (.union ts)

/-- No flattened field without default has a type whose text falls apart, that is, is a union that is not in parentheses.
(With `from` or `try_from` the fields do not matter.) -/
def NoFlattenedUnion (P : Program) : Prop :=
  ∀ s, Decl.struct s ∈ P → s.from_.ty? = none → ∀ f ∈ s.fields, f.skipDe = false → f.flatten = true → f.dflt = false →
    ∀ text, Returns P .inline f.ty text → ¬ FallsApart text

end Verif.Spec
