import Verif.Spec.Sound
import Verif.Zod.Parse

/-!
# The shapes serde uses for enum variants

The four representations (<https://serde.rs/enum-representations.html>), for JavaScript values. Members that are
not mentioned are ignored, as zod does.
-/

namespace Verif.Spec
open Verif Verif.Js Verif.Schema Verif.SchemaSpec

/-- The schema text `inline_schema()` of the type returns evaluates to a schema that accepts the value. -/
def TypeAccepts (P : Program) (E : Zod.ZEnv) (t : Ty) (v : JsVal) : Prop :=
  ∃ s z, Returns P .inlineSchema t s ∧ Zod.readSchema s = some z ∧ Zod.Accepts E z v

/-- A property of an object. -/
def prop? (kvs : List (Str × JsVal)) (k : Str) : Option JsVal := (kvs.find? (fun p => p.1 = k)).map (·.2)

/-- The payload of a variant: one unnamed field stands for itself, several are an array, named ones an object.
`ok t v`: `v` is acceptable for the type `t`. -/
inductive Payload (ok : Ty → JsVal → Prop) : Style → List Field → JsVal → Prop where
  | newtype (f : Field) (v : JsVal) : f.skipDe = false → ok f.ty v → Payload ok .tuple [f] v
  | tuple (fs : List Field) (vs : List JsVal) : fs.length ≠ 1 → All2 ok ((keptFields fs).map (·.ty)) vs →
      Payload ok .tuple fs (.arr vs)
  | named (fs : List Field) (kvs : List (Str × JsVal)) :
      (∀ f ∈ fs, f.skipDe = false →
        (f.dflt = true ∧ objGet kvs f.name = .undefined) ∨ ok f.ty (objGet kvs f.name)) →
      Payload ok .named fs (.obj kvs)

/-- The value of a variant. -/
inductive Shape (ok : Ty → JsVal → Prop) : Tag → Variant → JsVal → Prop where
  | externalUnit (w : Variant) : w.style = .unit → Shape ok .external w (.str w.name)
  | external (w : Variant) (kvs : List (Str × JsVal)) (x : JsVal) : prop? kvs w.name = some x →
      Payload ok w.style w.fields x → Shape ok .external w (.obj kvs)
  | internalUnit (tag : Str) (w : Variant) (kvs : List (Str × JsVal)) : w.style = .unit →
      prop? kvs tag = some (.str w.name) → Shape ok (.internal tag) w (.obj kvs)
  | internal (tag : Str) (w : Variant) (kvs : List (Str × JsVal)) : w.style = .named →
      prop? kvs tag = some (.str w.name) → Payload ok .named w.fields (.obj kvs) →
      Shape ok (.internal tag) w (.obj kvs)
  | internalNewtype (tag : Str) (w : Variant) (f : Field) (kvs : List (Str × JsVal)) : w.style = .tuple →
      prop? kvs tag = some (.str w.name) → w.fields = [f] →
      ok f.ty (.obj (kvs.filter (fun p => p.1 ≠ tag))) → Shape ok (.internal tag) w (.obj kvs)
  | adjacentUnit (tag content : Str) (w : Variant) (kvs : List (Str × JsVal)) : w.style = .unit →
      prop? kvs tag = some (.str w.name) → Shape ok (.adjacent tag content) w (.obj kvs)
  | adjacent (tag content : Str) (w : Variant) (kvs : List (Str × JsVal)) (x : JsVal) :
      prop? kvs tag = some (.str w.name) → prop? kvs content = some x → Payload ok w.style w.fields x →
      Shape ok (.adjacent tag content) w (.obj kvs)
  | untaggedUnit (w : Variant) : w.style = .unit → Shape ok .untagged w .null
  | untagged (w : Variant) (v : JsVal) : Payload ok w.style w.fields v → Shape ok .untagged w v

/-- Variants for which the schema has this shape: unnamed fields have no defaults and skipping fields does not
leave just one of several, or none; internally tagged variants have no unnamed fields; a payload under a key of
its own does not accept `undefined`. -/
def ShapedVariant (P : Program) (tag : Tag) (w : Variant) : Prop :=
  (w.style = .tuple →
    ((w.fields.length = 1 ∧ (keptFields w.fields).length = 1) ∨
      (w.fields.length ≠ 1 ∧ 2 ≤ (keptFields w.fields).length)) ∧
    ∀ f ∈ keptFields w.fields, f.dflt = false) ∧
  match tag with
  | .internal _ => w.style ≠ .tuple
  | .untagged => True
  | .external => w.style = .tuple → ∀ f, keptFields w.fields = [f] → NeverUndef P f.ty
  | .adjacent _ _ => w.style = .tuple → ∀ f, keptFields w.fields = [f] → NeverUndef P f.ty

end Verif.Spec
