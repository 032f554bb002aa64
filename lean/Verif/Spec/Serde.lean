import Verif.Js.Parser
import Verif.Rpc.Wire
import Verif.Spec.Ints
import Verif.Spec.Ip
import Verif.Spec.Schema

/-!
# What serde accepts

`De P t j`: `serde_json::from_str` of the document `j` as a value of type `t` succeeds, with the `Deserialize`
implementations of serde for the built-in types and those `#[derive(Deserialize)]` generates for the
declarations of `P`. serde is not part of this repository; the rules below state what is relied on. For built-in types
they are exact, except that there is none for `&str` (which depends on the document), 128 bit integers and maps whose
keys are not texts. For
derived types they are sufficient conditions: serde also accepts, for example, arrays for structs with named fields.
-/

namespace Verif.Spec
open Verif Verif.Js Verif.Schema Verif.SchemaSpec

/-- A member of a JSON object. -/
def jget (kvs : List (Str × Json)) (k : Str) : Option Json := (kvs.find? (fun p => p.1 = k)).map (·.2)

/-- `from`, as opposed to `try_from`. -/
def Decl.from_ : Decl → From
  | .struct s => s.from_
  | .enum e => e.from_

/-- `deny_unknown_fields`. -/
def Decl.deny : Decl → Bool
  | .struct s => s.deny
  | .enum e => e.deny

/-- Members that may occur besides those of the fields: any (`none`), or, with `deny_unknown_fields`, these. -/
def others (deny : Bool) (names : List Str) : Option (List Str) := if deny then some names else none

/-- The fields of a declaration, of all variants. -/
def allFields : Decl → List Field
  | .struct s => s.fields
  | .enum e => e.variants.flatMap (·.fields)

/-- The fields that are not skipped. -/
def keptFields (fs : List Field) : List Field := fs.filter (fun f => !f.skipDe)

/-- The names of those among them that are not flattened, with their aliases. -/
def plainNames (fs : List Field) : List Str :=
  ((keptFields fs).filter (fun f => !f.flatten)).flatMap (fun f => f.name :: f.aliases)

/-- The type is written `PhantomData<..>`. -/
def isPhantom : Ty → Bool
  | .wrap .phantomData _ => true
  | _ => false

/-- The fields of a `transparent` struct among which serde looks for the one to read. -/
def innerFields (fs : List Field) : List Field := (keptFields fs).filter (fun f => !f.dflt && !isPhantom f.ty)

/-- A field of a `transparent` struct that is the only one for the schema is the one serde reads. -/
theorem innerFields_only {fs : List Field} {f : Field} (h : keptFields fs = [f]) (hd : f.dflt = false)
    (hp : isPhantom f.ty = false) : innerFields fs = [f] := by
  simp [innerFields, h, hd, hp]

/-- The fields of a struct; `default` on the struct makes them all optional. -/
def StructDecl.deFields (s : StructDecl) : List Field :=
  if s.dfltAll then s.fields.map (fun f => { f with dflt := true }) else s.fields

/-- The first variant (of those not skipped) with its name. -/
def FirstNamed (e : EnumDecl) (v : Variant) : Prop :=
  (e.variants.filter (fun v => !v.skipDe)).find? (fun w => w.name = v.name) = some v

/-- Types for which serde's `missing_field` gives a value: it offers `None` to `deserialize_option` and fails
otherwise, and boxes, transparent structs and `from` pass the deserializer on. -/
inductive MissingOk (P : Program) : Ty → Prop where
  | option (t : Ty) : MissingOk P (.option t)
  | wrap (w : Wrapper) (t : Ty) : w ≠ .phantomData → MissingOk P t → MissingOk P (.wrap w t)
  | from_ (i : Nat) (d : Decl) (t : Ty) : P[i]? = some d → Decl.from_ d = .from_ t → MissingOk P t →
      MissingOk P (.named i)
  | transparent (i : Nat) (s : StructDecl) (f : Field) : P[i]? = some (.struct s) → s.from_ = .none →
      s.transparent = true → innerFields s.fields = [f] → MissingOk P f.ty → MissingOk P (.named i)

/-- How a variant is read: a newtype variant whose field is skipped is read like a unit variant. -/
def deStyle (v : Variant) : Style :=
  match v.style, v.fields with
  | .tuple, [f] => if f.skipDe then .unit else .tuple
  | s, _ => s

mutual
/-- The document is accepted as a value of the type. -/
inductive De (P : Program) : Ty → Json → Prop where
  | string (s : Str) : De P (.prim .string) (.str s)
  | smolStr (s : Str) : De P (.prim .smolStr) (.str s)
  | char (c : Char) : De P (.prim .char) (.str [c])
  | bool (b : Bool) : De P (.prim .bool) (.bool b)
  | unit : De P (.prim .unit) .null
  | int (p : Prim) (lo hi i : Int) : smallRange p = some (lo, hi) → lo ≤ i → i ≤ hi →
      De P (.prim p) (.num (.int i))
  | wide (p : Prim) (lo hi i : Int) : p = .u64 ∨ p = .i64 ∨ p = .usize ∨ p = .isize →
      wideRange p = some (lo, hi) → lo ≤ i → i ≤ hi → De P (.prim p) (.num (.int i))
  | float (p : Prim) (n : JNum) : p = .f32 ∨ p = .f64 ∨ p = .notNanF32 ∨ p = .notNanF64 →
      De P (.prim p) (.num n)
  | ipv4 (p : Prim) (a b c d : Fin 256) : p = .ipv4 ∨ p = .ip → De P (.prim p) (.str (dotted a b c d))
  | ipv6 (p : Prim) (s : Str) : p = .ipv6 ∨ p = .ip → V6Text s → De P (.prim p) (.str s)
  | wrap (w : Wrapper) (t : Ty) (j : Json) : w ≠ .phantomData → De P t j → De P (.wrap w t) j
  | phantom (t : Ty) : De P (.wrap .phantomData t) .null
  | none (t : Ty) : De P (.option t) .null
  | some (t : Ty) (j : Json) : De P t j → De P (.option t) j
  | vec (t : Ty) (js : List Json) : (∀ j ∈ js, De P t j) → De P (.vec t) (.arr js)
  | array (n : Nat) (t : Ty) (js : List Json) : js.length = n → (∀ j ∈ js, De P t j) → De P (.array n t) (.arr js)
  | hashSet (t : Ty) (js : List Json) : (∀ j ∈ js, De P t j) → De P (.hashSet t) (.arr js)
  | btreeSet (t : Ty) (js : List Json) : (∀ j ∈ js, De P t j) → De P (.btreeSet t) (.arr js)
  | hashMap (p : Prim) (t : Ty) (kvs : List (Str × Json)) : p = .string ∨ p = .smolStr → (∀ kv ∈ kvs, De P t kv.2) →
      De P (.hashMap (.prim p) t) (.obj kvs)
  | btreeMap (p : Prim) (t : Ty) (kvs : List (Str × Json)) : p = .string ∨ p = .smolStr → (∀ kv ∈ kvs, De P t kv.2) →
      De P (.btreeMap (.prim p) t) (.obj kvs)
  | tuple (ts : List Ty) (js : List Json) : All2 (De P) ts js → De P (.tuple ts) (.arr js)
  | ok (t e : Ty) (j : Json) : De P t j → De P (.result t e) (.obj [(lit "Ok", j)])
  | err (t e : Ty) (j : Json) : De P e j → De P (.result t e) (.obj [(lit "Err", j)])
  /-- `#[serde(from = "t")]` -/
  | from_ (i : Nat) (d : Decl) (t : Ty) (j : Json) : P[i]? = some d → Decl.from_ d = .from_ t → De P t j →
      De P (.named i) j
  /-- `#[serde(transparent)]` -/
  | transparent (i : Nat) (s : StructDecl) (f : Field) (j : Json) : P[i]? = some (.struct s) →
      s.from_ = .none → s.transparent = true → innerFields s.fields = [f] → De P f.ty j → De P (.named i) j
  /-- other structs -/
  | struct (i : Nat) (s : StructDecl) (j : Json) : P[i]? = some (.struct s) →
      s.from_ = .none → s.transparent = false → DeBody P (others s.deny []) s.style (StructDecl.deFields s) j → De P (.named i) j
  | externalUnit (i : Nat) (e : EnumDecl) (v : Variant) : P[i]? = some (.enum e) → e.from_ = .none →
      e.tag = .external → FirstNamed e v → deStyle v = .unit → De P (.named i) (.str v.name)
  | external (i : Nat) (e : EnumDecl) (v : Variant) (j : Json) : P[i]? = some (.enum e) → e.from_ = .none →
      e.tag = .external → FirstNamed e v → DeBody P (others e.deny []) (deStyle v) v.fields j →
      De P (.named i) (.obj [(v.name, j)])
  | internalUnit (i : Nat) (e : EnumDecl) (v : Variant) (tag : Str) (kvs : List (Str × Json)) :
      P[i]? = some (.enum e) → e.from_ = .none → e.tag = .internal tag → FirstNamed e v → deStyle v = .unit →
      (kvs.map (·.1)).Nodup → jget kvs tag = Option.some (.str v.name) → De P (.named i) (.obj kvs)
  | internal (i : Nat) (e : EnumDecl) (v : Variant) (tag : Str) (kvs : List (Str × Json)) :
      P[i]? = some (.enum e) → e.from_ = .none → e.tag = .internal tag → FirstNamed e v → deStyle v = .named →
      jget kvs tag = Option.some (.str v.name) → DeBody P (others e.deny [tag]) (deStyle v) v.fields (.obj kvs) →
      De P (.named i) (.obj kvs)
  /-- the payload is read from the other members -/
  | internalNewtype (i : Nat) (e : EnumDecl) (v : Variant) (tag : Str) (f : Field) (kvs : List (Str × Json)) :
      P[i]? = some (.enum e) → e.from_ = .none → e.tag = .internal tag → FirstNamed e v → deStyle v = .tuple →
      v.fields = [f] → (kvs.map (·.1)).Nodup → jget kvs tag = Option.some (.str v.name) →
      De P f.ty (.obj (kvs.filter (fun p => p.1 ≠ tag))) → De P (.named i) (.obj kvs)
  | adjacentUnit (i : Nat) (e : EnumDecl) (v : Variant) (tag content : Str) (kvs : List (Str × Json)) :
      P[i]? = some (.enum e) → e.from_ = .none → e.tag = .adjacent tag content → FirstNamed e v →
      deStyle v = .unit → (kvs.map (·.1)).Nodup → jget kvs tag = Option.some (.str v.name) →
      jget kvs content = Option.none → (e.deny = true → ∀ p ∈ kvs, p.1 = tag) → De P (.named i) (.obj kvs)
  | adjacent (i : Nat) (e : EnumDecl) (v : Variant) (tag content : Str) (kvs : List (Str × Json)) (j : Json) :
      P[i]? = some (.enum e) → e.from_ = .none → e.tag = .adjacent tag content → FirstNamed e v →
      (kvs.map (·.1)).Nodup → jget kvs tag = Option.some (.str v.name) → jget kvs content = Option.some j →
      (e.deny = true → ∀ p ∈ kvs, p.1 = tag ∨ p.1 = content) → DeBody P (others e.deny []) (deStyle v) v.fields j → De P (.named i) (.obj kvs)
  | untaggedUnit (i : Nat) (e : EnumDecl) (v : Variant) : P[i]? = some (.enum e) → e.from_ = .none →
      e.tag = .untagged → v ∈ e.variants → v.skipDe = false → deStyle v = .unit → De P (.named i) .null
  | untagged (i : Nat) (e : EnumDecl) (v : Variant) (j : Json) : P[i]? = some (.enum e) → e.from_ = .none →
      e.tag = .untagged → v ∈ e.variants → v.skipDe = false →
      DeBody P (others e.deny []) (deStyle v) v.fields j → De P (.named i) j

/-- The document is accepted as the fields of a struct or variant. Whether it is a newtype depends on the
number of all fields, skipped ones included. Tuples have as many elements as there are fields that are not skipped;
at the end those with a default may be missing. For named fields unknown members are ignored if `more` is `none`,
otherwise only the members of `more` may occur besides those of the fields; flattened fields are read
from the members that belong to no other field. -/
inductive DeBody (P : Program) : Option (List Str) → Style → List Field → Json → Prop where
  | newtype (more : Option (List Str)) (f : Field) (j : Json) : f.skipDe = false → De P f.ty j →
      DeBody P more .tuple [f] j
  | tuple (more : Option (List Str)) (fs : List Field) (js : List Json) : fs.length ≠ 1 →
      All2 (De P) ((keptFields fs).map (·.ty)) js → DeBody P more .tuple fs (.arr js)
  | short (more : Option (List Str)) (fs gs hs : List Field) (js : List Json) : fs.length ≠ 1 →
      keptFields fs = gs ++ hs → (∀ f ∈ hs, f.dflt = true) → All2 (De P) (gs.map (·.ty)) js →
      DeBody P more .tuple fs (.arr js)
  | named (more : Option (List Str)) (fs : List Field) (kvs : List (Str × Json)) : (kvs.map (·.1)).Nodup →
      (∀ names, more = Option.some names → ∀ p ∈ kvs, p.1 ∈ names ++ plainNames fs) →
      (∀ f ∈ fs, f.skipDe = false → f.flatten = false → DeField P f kvs) →
      (∀ f ∈ fs, f.skipDe = false → f.flatten = true → De P f.ty (.obj (kvs.filter (fun p => p.1 ∉ plainNames fs)))) →
      DeBody P more .named fs (.obj kvs)

/-- A named field. It is read from the member of its name or of one of its aliases, of which at most one may occur. -/
inductive DeField (P : Program) : Field → List (Str × Json) → Prop where
  | present (f : Field) (kvs : List (Str × Json)) (j : Json) : f.flatten = false →
      jget kvs f.name = Option.some j → (∀ a ∈ f.aliases, jget kvs a = Option.none) → De P f.ty j → DeField P f kvs
  | alias (f : Field) (kvs : List (Str × Json)) (a : Str) (j : Json) : f.flatten = false → a ∈ f.aliases →
      jget kvs a = Option.some j → (∀ b ∈ f.name :: f.aliases, b ≠ a → jget kvs b = Option.none) → De P f.ty j →
      DeField P f kvs
  | default (f : Field) (kvs : List (Str × Json)) : f.flatten = false →
      (∀ a ∈ f.name :: f.aliases, jget kvs a = Option.none) → f.dflt = true → DeField P f kvs
  | missing (f : Field) (kvs : List (Str × Json)) : f.flatten = false →
      (∀ a ∈ f.name :: f.aliases, jget kvs a = Option.none) → MissingOk P f.ty → DeField P f kvs
end

end Verif.Spec
