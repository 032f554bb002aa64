import Verif.Spec.Serde
import Verif.Spec.Throws
import Verif.Js.Value
import Verif.Zod.Parse

/-!
# Types whose schema accepts only what serde accepts
-/

namespace Verif.Spec
open Verif Verif.Js Verif.Schema Verif.SchemaSpec

/-- The schemas of the module generated for the program: `NS.NAME` is what the text `schema()` returns for
the declaration of that name evaluates to. -/
def IsModule (P : Program) (E : Zod.ZEnv) : Prop :=
  ∀ i d, P[i]? = some d → ∃ s, Returns P .schema (.named i) s ∧ E.const d.ns d.name = Zod.readSchema s

/-- No infinite number and no lone surrogate; if `wide`, moreover no number beyond `±2^53` (JavaScript's safe
integers and fractions of that size). -/
def plainJs (wide : Bool) : JsVal → Bool
  | .num .posInf => false
  | .num .negInf => false
  | .num (.fin q) => !wide || decide (-2 ^ 53 ≤ q ∧ q ≤ 2 ^ 53)
  | .badStr _ => false
  | .arr l => plainList l
  | .obj kvs => plainObj kvs
  | _ => true
where
  plainList : List JsVal → Bool
    | [] => true
    | v :: r => plainJs wide v && plainList r
  plainObj : List (Str × JsVal) → Bool
    | [] => true
    | (_, v) :: r => plainJs wide v && plainObj r

/-- Types whose schema does not accept `undefined`: no `Option` and no default in the position of the type
itself. -/
inductive NeverUndef (P : Program) : Ty → Prop where
  | prim (p : Prim) : NeverUndef P (.prim p)
  | wrap (w : Wrapper) (t : Ty) : NeverUndef P t → NeverUndef P (.wrap w t)
  | vec (t : Ty) : NeverUndef P (.vec t)
  | array (n : Nat) (t : Ty) : NeverUndef P (.array n t)
  | hashSet (t : Ty) : NeverUndef P (.hashSet t)
  | btreeSet (t : Ty) : NeverUndef P (.btreeSet t)
  | hashMap (k v : Ty) : NeverUndef P (.hashMap k v)
  | btreeMap (k v : Ty) : NeverUndef P (.btreeMap k v)
  | tuple (ts : List Ty) : NeverUndef P (.tuple ts)
  | result (t e : Ty) : NeverUndef P (.result t e)
  | from_ (i : Nat) (d : Decl) (t : Ty) : P[i]? = some d → (Decl.from_ d).ty? = some t → NeverUndef P t →
      NeverUndef P (.named i)
  | struct (i : Nat) (s : StructDecl) : P[i]? = some (.struct s) → s.from_.ty? = none →
      (s.transparent = true ∨ s.style = .tuple → ∀ f, keptFields s.fields = [f] → f.dflt = false) →
      (s.transparent = true ∨ s.style = .tuple → ∀ f, keptFields s.fields = [f] → NeverUndef P f.ty) →
      NeverUndef P (.named i)
  | enum (i : Nat) (e : EnumDecl) : P[i]? = some (.enum e) → e.from_.ty? = none →
      (e.tag = .untagged → ∀ v ∈ e.variants, v.skipDe = false → v.style = .tuple →
        ∀ f, keptFields v.fields = [f] → f.dflt = false) →
      (e.tag = .untagged → ∀ v ∈ e.variants, v.skipDe = false → v.style = .tuple →
        ∀ f, keptFields v.fields = [f] → NeverUndef P f.ty) →
      NeverUndef P (.named i)

/-- Built-in types with exact schemas, floating point numbers included; if `wide`, also the 64 bit integers,
whose schemas are exact for numbers up to `±2^53`. -/
def soundPrim (wide : Bool) : Prim → Bool
  | .string | .smolStr | .u8 | .u16 | .u32 | .i8 | .i16 | .i32 | .f32 | .f64 | .notNanF32 | .notNanF64
  | .char | .unit => true
  | .u64 | .i64 | .usize | .isize => wide
  | _ => false

/-- Types made of these: no 128 bit integers (and, unless `wide`, no 64 bit integers), arrays of fixed length, sets, maps whose keys are not
texts, `PhantomData`, IP addresses or borrowed strings, and no `Result` of an `Option`. Maps with text keys may have any values: they
are sent as `{}` (see C71). -/
inductive Sound (wide : Bool) (P : Program) : Ty → Prop where
  | prim (p : Prim) : soundPrim wide p = true → Sound wide P (.prim p)
  | wrap (w : Wrapper) (t : Ty) : w ≠ .phantomData → Sound wide P t → Sound wide P (.wrap w t)
  | option (t : Ty) : Sound wide P t → Sound wide P (.option t)
  | vec (t : Ty) : Sound wide P t → Sound wide P (.vec t)
  | hashMap (p : Prim) (t : Ty) : p = .string ∨ p = .smolStr → Sound wide P (.hashMap (.prim p) t)
  | btreeMap (p : Prim) (t : Ty) : p = .string ∨ p = .smolStr → Sound wide P (.btreeMap (.prim p) t)
  | tuple (ts : List Ty) : (∀ t ∈ ts, Sound wide P t) → Sound wide P (.tuple ts)
  | result (t e : Ty) : Sound wide P t → Sound wide P e → NeverUndef P t → NeverUndef P e → Sound wide P (.result t e)
  | named (i : Nat) : Sound wide P (.named i)

/-- The fields of a struct or variant. Unnamed ones have no default, and skipping fields does not leave just
one of several. Named ones are not flattened, and where `undefined` is accepted, serde accepts that the field
is missing; no alias is the name of a field. -/
def SoundFields (wide : Bool) (P : Program) : Style → List Field → Prop
  | .tuple, fs => ((fs.length = 1 ∧ (keptFields fs).length = 1) ∨ (fs.length ≠ 1 ∧ 2 ≤ (keptFields fs).length)) ∧
      ∀ f ∈ keptFields fs, f.dflt = false ∧ Sound wide P f.ty
  | .named, fs => ∀ f ∈ keptFields fs, f.flatten = false ∧ Sound wide P f.ty ∧
      (f.dflt = true ∨ NeverUndef P f.ty ∨ MissingOk P f.ty) ∧ ∀ a ∈ f.aliases, a ∉ (keptFields fs).map (·.name)
  | .unit, _ => True

/-- The variants of an enum. Internally tagged ones have no unnamed fields, and the tag is not an alias of a field; the payload of a newtype variant
that is written under a key does not accept `undefined`; tag and content have different names (serde insists
on this). -/
def SoundVariant (wide : Bool) (P : Program) (tag : Tag) (v : Variant) : Prop :=
  SoundFields wide P (deStyle v) v.fields ∧
  match tag with
  | .internal t => deStyle v ≠ .tuple ∧ ∀ f ∈ keptFields v.fields, t ∉ f.aliases
  | .untagged => True
  | .external => deStyle v = .tuple → ∀ f, keptFields v.fields = [f] → NeverUndef P f.ty
  | .adjacent t c => t ≠ c ∧ (deStyle v = .tuple → ∀ f, keptFields v.fields = [f] → NeverUndef P f.ty)

/-- The condition on a declaration: on its fields or on those of its variants, or on the type it is read through. -/
def SoundDecl (wide : Bool) (P : Program) : Decl → Prop
  | .struct s => match s.from_ with
    | .from_ t => Sound wide P t
    | .tryFrom _ => False
    | .none =>
      if s.transparent then ∃ f, keptFields s.fields = [f] ∧ f.dflt = false ∧ f.flatten = false ∧ Sound wide P f.ty
      else s.style ≠ .unit ∧ SoundFields wide P s.style s.fields ∧ (∀ f ∈ keptFields s.fields, f.flatten = false)
  | .enum e => match e.from_ with
    | .from_ t => Sound wide P t
    | .tryFrom _ => False
    | .none => DistinctVariants e ∧ ∀ v ∈ e.variants, v.skipDe = false → SoundVariant wide P e.tag v

end Verif.Spec
