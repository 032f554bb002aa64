import Verif.Spec.Wrappers

/-!
# Programs that grow (specification)
-/

namespace Verif.Spec
open Verif Verif.Js Verif.Schema Verif.SchemaSpec Verif.Zod

/-- The second list is the first one with new fields, at any places. Their names and aliases are in `K`, and they have a default,
unless `req` says that they may be required. -/
inductive MoreFields (req : Bool) (K : Str → Prop) : List Field → List Field → Prop where
  | nil : MoreFields req K [] []
  | same (f : Field) {l l' : List Field} : MoreFields req K l l' → MoreFields req K (f :: l) (f :: l')
  | new (f : Field) {l l' : List Field} : f.named = true → (req = true ∨ f.dflt = true) → f.flatten = false → f.skipDe = false →
      (∀ a ∈ f.name :: f.aliases, K a) → MoreFields req K l l' → MoreFields req K l (f :: l')

/-- The variant, or if it has named fields, the variant with new ones. -/
inductive MoreVariant (req : Bool) (K : Str → Prop) : Variant → Variant → Prop where
  | same (v : Variant) : MoreVariant req K v v
  | fields (v : Variant) (fs : List Field) : v.style = .named → MoreFields req K v.fields fs → MoreVariant req K v { v with fields := fs }

/-- The declaration, with new named fields in a struct or in variants of an enum. -/
inductive MoreDecl (req : Bool) (K : Str → Prop) : Decl → Decl → Prop where
  | same (d : Decl) : MoreDecl req K d d
  | struct (s : StructDecl) (fs : List Field) : s.transparent = false → s.style = .named → MoreFields req K s.fields fs →
      MoreDecl req K (.struct s) (.struct { s with fields := fs })
  | enum (e : EnumDecl) (vs : List Variant) : All2 (MoreVariant req K) e.variants vs →
      MoreDecl req K (.enum e) (.enum { e with variants := vs })

/-- The program with new fields, whose names are in `K` and which have a default. -/
def MoreProgram (K : Str → Prop) (P P' : Program) : Prop := All2 (MoreDecl false K) P P'

/-- The program with new fields of any names, with defaults or without, and new types. -/
def LargerProgram (P P' : Program) : Prop :=
  ∀ (i : Nat) (d : Decl), P[i]? = some d → ∃ d', P'[i]? = some d' ∧ MoreDecl true (fun _ => True) d d'

/-- The second list is the first one with new variants at any places, and with new fields in the others. -/
inductive MoreVariants (K : Str → Prop) : List Variant → List Variant → Prop where
  | nil : MoreVariants K [] []
  | same {v v' : Variant} {l l' : List Variant} : MoreVariant false K v v' → MoreVariants K l l' → MoreVariants K (v :: l) (v' :: l')
  | new (v : Variant) {l l' : List Variant} : MoreVariants K l l' → MoreVariants K l (v :: l')

/-- The declaration, with new named fields, or with new variants. -/
inductive WiderDecl (K : Str → Prop) : Decl → Decl → Prop where
  | fields {d d' : Decl} : MoreDecl false K d d' → WiderDecl K d d'
  | variants (e : EnumDecl) (vs : List Variant) : MoreVariants K e.variants vs →
      WiderDecl K (.enum e) (.enum { e with variants := vs })

/-- The program with new fields, whose names are in `K` and which have a default, new variants and new types. -/
def WiderProgram (K : Str → Prop) (P P' : Program) : Prop :=
  ∀ (i : Nat) (d : Decl), P[i]? = some d → ∃ d', P'[i]? = some d' ∧ WiderDecl K d d'

/-- No object inside of the value has a property with a name in `K`. -/
inductive Lacks (K : Str → Prop) : JsVal → Prop where
  | undefined : Lacks K .undefined
  | null : Lacks K .null
  | bool (b : Bool) : Lacks K (.bool b)
  | num (n : JsNum) : Lacks K (.num n)
  | str (s : Str) : Lacks K (.str s)
  | badStr (n : Nat) : Lacks K (.badStr n)
  | other : Lacks K .other
  | arr (l : List JsVal) : (∀ v ∈ l, Lacks K v) → Lacks K (.arr l)
  | set (l : List JsVal) : (∀ v ∈ l, Lacks K v) → Lacks K (.set l)
  | map (l : List (JsVal × JsVal)) : (∀ p ∈ l, Lacks K p.1) → (∀ p ∈ l, Lacks K p.2) → Lacks K (.map l)
  | obj (kvs : List (Str × JsVal)) : (∀ p ∈ kvs, ¬ K p.1) → (∀ p ∈ kvs, Lacks K p.2) → Lacks K (.obj kvs)

end Verif.Spec
