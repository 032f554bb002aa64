import Verif.Spec.Ser
import Verif.Spec.Text
import Verif.Js.Value

/-!
# Handing a document back
-/

namespace Verif.EchoSpec
open Verif Verif.Schema Verif.Spec

/-- The number, however it is written. -/
def value : JNum → Rat
  | .int i => i
  | .flt q => q

/-- The same document up to the notation of numbers (`5.0` and `5`) and the order of members. -/
def SameDoc : Json → Json → Prop
  | .null, .null => True
  | .bool b, .bool b' => b = b'
  | .num a, .num b => value a = value b
  | .str s, .str s' => s = s'
  | .arr l, .arr l' => sameList l l'
  | .obj kvs, .obj kvs' => kvs.length = kvs'.length ∧ membersIn kvs kvs'
  | _, _ => False
where
  sameList : List Json → List Json → Prop
    | [], [] => True
    | j :: r, j' :: r' => SameDoc j j' ∧ sameList r r'
    | _, _ => False
  membersIn : List (Str × Json) → List (Str × Json) → Prop
    | [], _ => True
    | (k, j) :: r, m => (∃ j', (k, j') ∈ m ∧ SameDoc j j') ∧ membersIn r m

/-- Numbers that JavaScript holds exactly and prints with all digits. -/
def Exact : JNum → Prop
  | .int i => -(2 ^ 53) ≤ i ∧ i ≤ 2 ^ 53
  | .flt q => q.den = 1 → -(2 ^ 53) ≤ q.num ∧ q.num ≤ 2 ^ 53

/-- The numbers written with a fraction or exponent are. -/
def FloatsExact : JNum → Prop
  | .int _ => True
  | n => Exact n

/-- Types without integers of more than 32 bits. -/
inductive Narrow : Ty → Prop where
  | prim (p : Prim) : wideRange p = none → Narrow (.prim p)
  | wrap (w : Wrapper) (t : Ty) : Narrow t → Narrow (.wrap w t)
  | option (t : Ty) : Narrow t → Narrow (.option t)
  | vec (t : Ty) : Narrow t → Narrow (.vec t)
  | array (n : Nat) (t : Ty) : Narrow t → Narrow (.array n t)
  | hashSet (t : Ty) : Narrow t → Narrow (.hashSet t)
  | btreeSet (t : Ty) : Narrow t → Narrow (.btreeSet t)
  | hashMap (k v : Ty) : Narrow k → Narrow v → Narrow (.hashMap k v)
  | btreeMap (k v : Ty) : Narrow k → Narrow v → Narrow (.btreeMap k v)
  | tuple (ts : List Ty) : (∀ t ∈ ts, Narrow t) → Narrow (.tuple ts)
  | result (t e : Ty) : Narrow t → Narrow e → Narrow (.result t e)
  | named (i : Nat) : Narrow (.named i)

/-- The types that the values of a declaration are written with. -/
def writtenTypes : Decl → List Ty
  | .struct s => s.into.toList ++ s.fields.map (·.ty)
  | .enum e => e.into.toList ++ e.variants.flatMap (fun v => v.fields.map (·.ty))

/-- No declaration uses integers of more than 32 bits. -/
def NarrowProgram (P : Program) : Prop := ∀ d ∈ P, ∀ t ∈ writtenTypes d, Narrow t

/-- Types whose documents can be read again: no `&str`, which cannot be owned, no 128 bit integers, maps, `PhantomData`
or `Weak`. -/
inductive Readable : Ty → Prop where
  | prim (p : Prim) : p ≠ .strRef → p ≠ .u128 → p ≠ .i128 → Readable (.prim p)
  | wrap (w : Wrapper) (t : Ty) : w ≠ .phantomData → w ≠ .weak → Readable t → Readable (.wrap w t)
  | option (t : Ty) : Readable t → Readable (.option t)
  | vec (t : Ty) : Readable t → Readable (.vec t)
  | array (n : Nat) (t : Ty) : Readable t → Readable (.array n t)
  | hashSet (t : Ty) : Readable t → Readable (.hashSet t)
  | btreeSet (t : Ty) : Readable t → Readable (.btreeSet t)
  | tuple (ts : List Ty) : (∀ t ∈ ts, Readable t) → Readable (.tuple ts)
  | result (t e : Ty) : Readable t → Readable e → Readable (.result t e)
  | named (i : Nat) : Readable (.named i)

/-- No alias of a field that is read is the name of a member that is written. -/
def FreeAliases (fs : List Field) : Prop := ∀ f ∈ keptFields fs, ∀ a ∈ f.aliases, a ∉ (serFields fs).map (·.serName)

/-- The types in the declaration are; conversions from another type do not fail; with `deny_unknown_fields` all fields
that are written are also read; no alias is the name of another member; variants are named differently, and no
field is named like the tag of the enum. -/
def ReadableDecl (d : Decl) : Prop :=
  (∀ t ∈ writtenTypes d, Readable t) ∧ (∀ t, Decl.from_ d ≠ .tryFrom t) ∧
  (Decl.deny d = true → ∀ f ∈ allFields d, f.skipSer = false → f.skipDe = false) ∧
  match d with
  | .struct s => FreeAliases s.fields ∧ (s.transparent = true → ∀ f ∈ s.fields, f.dflt = false)
  | .enum e => (∀ v ∈ e.variants, v.skipSer = false → FirstNamed e v ∧ FreeAliases v.fields) ∧
      ∀ tag, e.tag = .internal tag → ∀ v ∈ e.variants,
        tag ∉ (keptFields v.fields).map (·.name) ∧ ∀ f ∈ keptFields v.fields, tag ∉ f.aliases

/-- The `n`-th variant is the first that accepts the document: the one serde takes for an untagged enum. -/
def TakesVariant (P : Program) (e : EnumDecl) (n : Nat) (j : Json) : Prop :=
  (∃ v, e.variants[n]? = some v ∧ DeBody P (others e.deny []) (deStyle v) v.fields j) ∧
  ∀ m, m < n → ∀ v, e.variants[m]? = some v → ¬ DeBody P (others e.deny []) (deStyle v) v.fields j

end Verif.EchoSpec
