import Verif.Spec.Sound

/-!
# What serde writes

`Ser P odd t j`: `j` is the document `serde_json::to_value` makes of some value of type `t`, with the
`Serialize` implementations of serde for the built-in types and those `#[derive(Serialize)]` generates for the
declarations of `P`. Values with non-finite numbers, characters outside of Unicode's basic multilingual
plane or IPv6 addresses whose text ends with `::` are only considered if `odd` is set. Not covered: maps whose keys are not texts, newtype variants of
internally tagged enums whose payload is not written as an object.
-/

namespace Verif.Spec
open Verif Verif.Js Verif.Schema Verif.SchemaSpec

/-- The type named by `into`. -/
def Decl.into : Decl → Option Ty
  | .struct s => s.into
  | .enum e => e.into

/-- The fields that are written. -/
def serFields (fs : List Field) : List Field := fs.filter (fun f => !f.skipSer)

/-- The fields of a `transparent` struct among which serde looks for the one to write. -/
def innerSer (fs : List Field) : List Field := (serFields fs).filter (fun f => !isPhantom f.ty)

theorem innerSer_only {fs : List Field} {f g : Field} (h : serFields fs = [f]) (hg : innerSer fs = [g]) : g = f := by
  have : g ∈ innerSer fs := by rw [hg]; exact List.mem_cons_self
  have := (List.mem_filter.1 this).1
  rw [h] at this
  exact List.mem_singleton.1 this

/-- Types whose values are written as texts, and as keys of maps. -/
def textPrim (p : Prim) : Prop := p = .string ∨ p = .strRef ∨ p = .smolStr

/-- Floating point numbers. -/
def floatPrim (p : Prim) : Prop := p = .f32 ∨ p = .f64 ∨ p = .notNanF32 ∨ p = .notNanF64

/-- How a variant is written: a newtype variant whose field is not written is written like a unit variant. -/
def serStyle (v : Variant) : Style :=
  match v.style, v.fields with
  | .tuple, [f] => if f.skipSer then .unit else .tuple
  | s, _ => s

/-- The unnamed fields that are written: `skip_serializing_if` may leave out some. -/
inductive Chosen : List Field → List Field → Prop where
  | nil : Chosen [] []
  | keep (f : Field) (fs gs : List Field) : Chosen fs gs → Chosen (f :: fs) (f :: gs)
  | drop (f : Field) (fs gs : List Field) : f.skipIf = true ∨ (f.skipIfNone = true ∧ ∃ t, f.ty = .option t) →
      Chosen fs gs → Chosen (f :: fs) gs

theorem Chosen.refl : ∀ fs : List Field, Chosen fs fs
  | [] => .nil
  | f :: fs => .keep f fs fs (refl fs)

mutual
/-- The document is what serde writes for some value of the type. -/
inductive Ser (P : Program) (odd : Bool) : Ty → Json → Prop where
  | string (s : Str) : Ser P odd (.prim .string) (.str s)
  | strRef (s : Str) : Ser P odd (.prim .strRef) (.str s)
  | smolStr (s : Str) : Ser P odd (.prim .smolStr) (.str s)
  | char (c : Char) : odd = true ∨ c.toNat < 65536 → Ser P odd (.prim .char) (.str [c])
  | bool (b : Bool) : Ser P odd (.prim .bool) (.bool b)
  | unit : Ser P odd (.prim .unit) .null
  | ipv4 (p : Prim) (a b c d : Fin 256) : p = .ipv4 ∨ p = .ip → Ser P odd (.prim p) (.str (dotted a b c d))
  | ipv6 (p : Prim) (old : Bool) (g : List (Fin 65536)) : p = .ipv6 ∨ p = .ip → g.length = 8 →
      odd = true ∨ ¬ lit "::" <:+ showV6 old g → Ser P odd (.prim p) (.str (showV6 old g))
  | int (p : Prim) (lo hi i : Int) : smallRange p = some (lo, hi) ∨ wideRange p = some (lo, hi) → lo ≤ i →
      i ≤ hi → Ser P odd (.prim p) (.num (.int i))
  | float (p : Prim) (q : Rat) : floatPrim p → Ser P odd (.prim p) (.num (.flt q))
  | nonFinite (p : Prim) : floatPrim p → odd = true → Ser P odd (.prim p) .null
  | wrap (w : Wrapper) (t : Ty) (j : Json) : w ≠ .phantomData → Ser P odd t j → Ser P odd (.wrap w t) j
  | phantom (t : Ty) : Ser P odd (.wrap .phantomData t) .null
  | weak (t : Ty) : Ser P odd (.wrap .weak t) .null
  | none (t : Ty) : Ser P odd (.option t) .null
  | some (t : Ty) (j : Json) : Ser P odd t j → Ser P odd (.option t) j
  | vec (t : Ty) (js : List Json) : (∀ j ∈ js, Ser P odd t j) → Ser P odd (.vec t) (.arr js)
  | array (n : Nat) (t : Ty) (js : List Json) : js.length = n → (∀ j ∈ js, Ser P odd t j) →
      Ser P odd (.array n t) (.arr js)
  | hashSet (t : Ty) (js : List Json) : (∀ j ∈ js, Ser P odd t j) → Ser P odd (.hashSet t) (.arr js)
  | btreeSet (t : Ty) (js : List Json) : (∀ j ∈ js, Ser P odd t j) → Ser P odd (.btreeSet t) (.arr js)
  | hashMap (p : Prim) (t : Ty) (kvs : List (Str × Json)) : textPrim p → (∀ kv ∈ kvs, Ser P odd t kv.2) →
      Ser P odd (.hashMap (.prim p) t) (.obj kvs)
  | btreeMap (p : Prim) (t : Ty) (kvs : List (Str × Json)) : textPrim p → (∀ kv ∈ kvs, Ser P odd t kv.2) →
      Ser P odd (.btreeMap (.prim p) t) (.obj kvs)
  | tuple (ts : List Ty) (js : List Json) : All2 (Ser P odd) ts js → Ser P odd (.tuple ts) (.arr js)
  | ok (t e : Ty) (j : Json) : Ser P odd t j → Ser P odd (.result t e) (.obj [(lit "Ok", j)])
  | err (t e : Ty) (j : Json) : Ser P odd e j → Ser P odd (.result t e) (.obj [(lit "Err", j)])
  /-- `#[serde(into = "t")]` -/
  | into (i : Nat) (d : Decl) (t : Ty) (j : Json) : P[i]? = some d → Decl.into d = Option.some t →
      Ser P odd t j → Ser P odd (.named i) j
  /-- `#[serde(transparent)]` -/
  | transparent (i : Nat) (s : StructDecl) (f : Field) (j : Json) : P[i]? = some (.struct s) →
      s.into = Option.none → s.transparent = true → innerSer s.fields = [f] → Ser P odd f.ty j →
      Ser P odd (.named i) j
  | struct (i : Nat) (s : StructDecl) (j : Json) : P[i]? = some (.struct s) → s.into = Option.none →
      s.transparent = false → SerBody P odd s.style s.fields j → Ser P odd (.named i) j
  | externalUnit (i : Nat) (e : EnumDecl) (v : Variant) : P[i]? = some (.enum e) → e.into = Option.none →
      e.tag = .external → v ∈ e.variants → v.skipSer = false → serStyle v = .unit →
      Ser P odd (.named i) (.str v.serName)
  | external (i : Nat) (e : EnumDecl) (v : Variant) (j : Json) : P[i]? = some (.enum e) →
      e.into = Option.none → e.tag = .external → v ∈ e.variants → v.skipSer = false →
      SerBody P odd (serStyle v) v.fields j → Ser P odd (.named i) (.obj [(v.serName, j)])
  | internalUnit (i : Nat) (e : EnumDecl) (v : Variant) (tag : Str) : P[i]? = some (.enum e) →
      e.into = Option.none → e.tag = .internal tag → v ∈ e.variants → v.skipSer = false → serStyle v = .unit →
      Ser P odd (.named i) (.obj [(tag, .str v.serName)])
  | internal (i : Nat) (e : EnumDecl) (v : Variant) (tag : Str) (kvs : List (Str × Json)) :
      P[i]? = some (.enum e) → e.into = Option.none → e.tag = .internal tag → v ∈ e.variants →
      v.skipSer = false → serStyle v = .named → SerFields P odd v.fields kvs →
      Ser P odd (.named i) (.obj ((tag, .str v.serName) :: kvs))
  | internalNewtype (i : Nat) (e : EnumDecl) (v : Variant) (tag : Str) (f : Field) (kvs : List (Str × Json)) :
      P[i]? = some (.enum e) → e.into = Option.none → e.tag = .internal tag → v ∈ e.variants →
      v.skipSer = false → serStyle v = .tuple → v.fields = [f] → Ser P odd f.ty (.obj kvs) →
      Ser P odd (.named i) (.obj ((tag, .str v.serName) :: kvs))
  | adjacentUnit (i : Nat) (e : EnumDecl) (v : Variant) (tag content : Str) : P[i]? = some (.enum e) →
      e.into = Option.none → e.tag = .adjacent tag content → v ∈ e.variants → v.skipSer = false →
      serStyle v = .unit → Ser P odd (.named i) (.obj [(tag, .str v.serName)])
  | adjacent (i : Nat) (e : EnumDecl) (v : Variant) (tag content : Str) (j : Json) :
      P[i]? = some (.enum e) → e.into = Option.none → e.tag = .adjacent tag content → v ∈ e.variants →
      v.skipSer = false → SerBody P odd (serStyle v) v.fields j →
      Ser P odd (.named i) (.obj [(tag, .str v.serName), (content, j)])
  | untaggedUnit (i : Nat) (e : EnumDecl) (v : Variant) : P[i]? = some (.enum e) → e.into = Option.none →
      e.tag = .untagged → v ∈ e.variants → v.skipSer = false → serStyle v = .unit → Ser P odd (.named i) .null
  | untagged (i : Nat) (e : EnumDecl) (v : Variant) (j : Json) : P[i]? = some (.enum e) →
      e.into = Option.none → e.tag = .untagged → v ∈ e.variants → v.skipSer = false →
      SerBody P odd (serStyle v) v.fields j → Ser P odd (.named i) j

/-- The fields of a struct or variant. -/
inductive SerBody (P : Program) (odd : Bool) : Style → List Field → Json → Prop where
  | newtype (f : Field) (j : Json) : Ser P odd f.ty j → SerBody P odd .tuple [f] j
  | tuple (fs gs : List Field) (js : List Json) : fs.length ≠ 1 → Chosen (serFields fs) gs →
      All2 (Ser P odd) (gs.map (·.ty)) js → SerBody P odd .tuple fs (.arr js)
  | named (fs : List Field) (kvs : List (Str × Json)) : SerFields P odd fs kvs → SerBody P odd .named fs (.obj kvs)

/-- Named fields, in order; those with `skip_serializing` are left out, and those with
`skip_serializing_if = "Option::is_none"` when they are `None`; those with another `skip_serializing_if` may be. -/
inductive SerFields (P : Program) (odd : Bool) : List Field → List (Str × Json) → Prop where
  | nil : SerFields P odd [] []
  | skip (f : Field) (fs : List Field) (kvs : List (Str × Json)) : f.skipSer = true →
      SerFields P odd fs kvs → SerFields P odd (f :: fs) kvs
  | absent (f : Field) (fs : List Field) (kvs : List (Str × Json)) (t : Ty) : f.skipSer = false →
      f.skipIfNone = true → f.ty = .option t → SerFields P odd fs kvs → SerFields P odd (f :: fs) kvs
  | omitted (f : Field) (fs : List Field) (kvs : List (Str × Json)) : f.skipSer = false → f.skipIf = true →
      SerFields P odd fs kvs → SerFields P odd (f :: fs) kvs
  | present (f : Field) (fs : List Field) (kvs : List (Str × Json)) (t : Ty) (j : Json) : f.skipSer = false →
      f.skipIfNone = true → f.ty = .option t → f.flatten = false → Ser P odd t j → SerFields P odd fs kvs →
      SerFields P odd (f :: fs) ((f.serName, j) :: kvs)
  | field (f : Field) (fs : List Field) (kvs : List (Str × Json)) (j : Json) : f.skipSer = false →
      f.skipIfNone = false → f.flatten = false → Ser P odd f.ty j → SerFields P odd fs kvs →
      SerFields P odd (f :: fs) ((f.serName, j) :: kvs)
  /-- the members of a flattened field stand among the others -/
  | flat (f : Field) (fs : List Field) (kvs' kvs : List (Str × Json)) : f.skipSer = false → f.flatten = true →
      Ser P odd f.ty (.obj kvs') → SerFields P odd fs kvs → SerFields P odd (f :: fs) (kvs' ++ kvs)
  | flatNone (f : Field) (fs : List Field) (kvs : List (Str × Json)) (t : Ty) : f.skipSer = false →
      f.flatten = true → f.ty = .option t → SerFields P odd fs kvs → SerFields P odd (f :: fs) kvs
end

/-! ## Types whose schema accepts everything serde writes -/

/-- The built-in types. -/
def completePrim : Prim → Bool
  | .bool => false
  | _ => true

/-- No `Option` (`None` is written as `null`, which `.optional()` does not accept), no sets, maps,
`PhantomData` or `Weak`. -/
inductive Complete : Ty → Prop where
  | prim (p : Prim) : completePrim p = true → Complete (.prim p)
  | wrap (w : Wrapper) (t : Ty) : w ≠ .phantomData → w ≠ .weak → Complete t → Complete (.wrap w t)
  | vec (t : Ty) : Complete t → Complete (.vec t)
  | array (n : Nat) (t : Ty) : Complete t → Complete (.array n t)
  | tuple (ts : List Ty) : (∀ t ∈ ts, Complete t) → Complete (.tuple ts)
  | result (t e : Ty) : Complete t → Complete e → Complete (.result t e)
  | named (i : Nat) : Complete (.named i)

/-- A named field that is read. It is written under the name it is read under, or it has a default and
nothing else is written under its name. An `Option` must be left out when it is `None`; fields that are left out in other
cases must have a default. -/
def CompleteField (fs : List Field) (f : Field) : Prop :=
  f.flatten = false ∧ (f.skipSer = false → f.serName = f.name) ∧
  (f.skipSer = true → f.dflt = true ∧ f.name ∉ (serFields fs).map (·.serName)) ∧
  ((Complete f.ty ∧ f.skipIfNone = false ∧ (f.skipIf = true → f.dflt = true)) ∨
    ∃ t, f.ty = .option t ∧ Complete t ∧ f.skipIfNone = true ∧ f.skipIf = false)

/-- The fields of a struct or variant. -/
def CompleteFields : Style → List Field → Prop
  | .tuple, fs => ((fs.length = 1 ∧ (keptFields fs).length = 1) ∨ (fs.length ≠ 1 ∧ 2 ≤ (keptFields fs).length)) ∧
      (∀ f ∈ fs, f.skipSer = f.skipDe) ∧ ∀ f ∈ keptFields fs, Complete f.ty ∧ (fs.length ≠ 1 → f.skipIf = false)
  | .named, fs => (∀ f ∈ keptFields fs, CompleteField fs f) ∧ ((serFields fs).map (·.serName)).Nodup ∧
      ∀ f ∈ serFields fs, f.flatten = false
  | .unit, fs => keptFields fs = []

/-- A variant that is written can be read, under the same name. -/
def CompleteVariant (tag : Tag) (v : Variant) : Prop :=
  v.skipDe = false ∧ v.serName = v.name ∧ CompleteFields (serStyle v) v.fields ∧
  match tag with
  | .internal t => serStyle v ≠ .tuple ∧ t ∉ (serFields v.fields).map (·.serName)
  | .adjacent t c => t ≠ c
  | _ => True

/-- Declarations that are written through another type are also read through it. -/
def CompleteDecl : Decl → Prop
  | .struct s => match s.into with
    | some t => s.from_.ty? = some t ∧ Complete t
    | none => s.from_.ty? = none ∧
      if s.transparent then ∃ f, keptFields s.fields = [f] ∧ serFields s.fields = [f] ∧ f.flatten = false ∧
        Complete f.ty
      else s.style ≠ .unit ∧ CompleteFields s.style s.fields ∧ (∀ f ∈ keptFields s.fields, f.flatten = false)
  | .enum e => match e.into with
    | some t => e.from_.ty? = some t ∧ Complete t
    | none => e.from_.ty? = none ∧
      ∀ v ∈ e.variants, v.skipSer = false → CompleteVariant e.tag v

end Verif.Spec
