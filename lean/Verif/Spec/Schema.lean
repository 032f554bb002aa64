import Verif.Schema.Eval

/-!
# Vocabulary for statements about schema generation
-/

namespace Verif.SchemaSpec
open Verif Verif.Schema

/-- The call `b` occurs in the body of the function called by `a`. -/
def Calls (P : Program) (a b : Method × Ty) : Prop :=
  ∃ ps, body P a.1 a.2 = some ps ∧ Piece.call b.1 b.2 ∈ ps

/-- A sequence of calls nested in each other without end, starting from `a`. -/
def EndlessCalls (P : Program) (a : Method × Ty) : Prop :=
  ∃ c : Nat → Method × Ty, c 0 = a ∧ ∀ i, Calls P (c i) (c (i + 1))

/-- The types a derived implementation may use: those of the fields that are not skipped, of the variants
that are not skipped, and the type named by `from` / `try_from`. -/
def fieldTypes (fs : List Field) : List Ty := (fs.filter (fun f => !f.skipDe)).map (·.ty)

/-- The types of the fields of a declaration. -/
def declTypes : Decl → List Ty
  | .struct s => fieldTypes s.fields ++ s.from_.ty?.toList
  | .enum e => ((e.variants.filter (fun v => !v.skipDe)).map (fun v => fieldTypes v.fields)).flatten ++
      e.from_.ty?.toList

/-- `u` is a direct component of `t`. -/
inductive Part (P : Program) : Ty → Ty → Prop where
  | wrap (w : Wrapper) (t : Ty) : Part P (.wrap w t) t
  | option (t : Ty) : Part P (.option t) t
  | vec (t : Ty) : Part P (.vec t) t
  | array (n : Nat) (t : Ty) : Part P (.array n t) t
  | hashSet (t : Ty) : Part P (.hashSet t) t
  | btreeSet (t : Ty) : Part P (.btreeSet t) t
  | hashMapK (k v : Ty) : Part P (.hashMap k v) k
  | hashMapV (k v : Ty) : Part P (.hashMap k v) v
  | btreeMapK (k v : Ty) : Part P (.btreeMap k v) k
  | btreeMapV (k v : Ty) : Part P (.btreeMap k v) v
  | tuple (ts : List Ty) (t : Ty) : t ∈ ts → Part P (.tuple ts) t
  | resultT (t e : Ty) : Part P (.result t e) t
  | resultE (t e : Ty) : Part P (.result t e) e
  | named (i : Nat) (d : Decl) (t : Ty) : P[i]? = some d → t ∈ declTypes d → Part P (.named i) t

/-- `t` can be taken apart forever. -/
def Recursive (P : Program) (t : Ty) : Prop :=
  ∃ c : Nat → Ty, c 0 = t ∧ ∀ i, Part P (c i) (c (i + 1))

/-- The derived types used by `t` exist. -/
inductive InScope (P : Program) : Ty → Prop where
  | prim (p : Prim) : InScope P (.prim p)
  | wrap (w : Wrapper) {t : Ty} : InScope P t → InScope P (.wrap w t)
  | option {t : Ty} : InScope P t → InScope P (.option t)
  | vec {t : Ty} : InScope P t → InScope P (.vec t)
  | array (n : Nat) {t : Ty} : InScope P t → InScope P (.array n t)
  | hashSet {t : Ty} : InScope P t → InScope P (.hashSet t)
  | btreeSet {t : Ty} : InScope P t → InScope P (.btreeSet t)
  | hashMap {k v : Ty} : InScope P k → InScope P v → InScope P (.hashMap k v)
  | btreeMap {k v : Ty} : InScope P k → InScope P v → InScope P (.btreeMap k v)
  | tuple {ts : List Ty} : (∀ t ∈ ts, InScope P t) → InScope P (.tuple ts)
  | result {t e : Ty} : InScope P t → InScope P e → InScope P (.result t e)
  | named {i : Nat} : i < P.length → InScope P (.named i)

/-- A program rustc accepts: every derive succeeds and the types used exist. -/
def Valid (P : Program) : Prop :=
  (∀ d ∈ P, ∃ impl, derive d = .ok impl) ∧ ∀ d ∈ P, ∀ t ∈ declTypes d, InScope P t

/-- No `from` / `try_from` on the declaration. -/
def NoFrom : Decl → Prop
  | .struct s => s.from_.ty? = none
  | .enum e => e.from_.ty? = none

/-- Is it a derived type (rather than a built-in one)? -/
def isNamed : Ty → Bool
  | .named _ => true
  | _ => false

/-- `Box<..>`, `Arc<..>`, ..., and tuples print their components in full. -/
def isWrapOrTuple : Ty → Bool
  | .wrap _ _ => true
  | .tuple _ => true
  | _ => false

/-- `type_def()` of `t` contains the full definition of `u`: a component of a built-in type, or the type of
a field of a derived type unless that is itself a derived type (referenced by name). -/
def TypeExpands (P : Program) (t u : Ty) : Prop := Part P t u ∧ (isNamed t = true → isNamed u = false)

/-- `schema()` of `t` contains the full schema of `u`: a derived type is referenced by `z.lazy` except
inside wrappers and tuples. -/
def SchemaExpands (P : Program) (t u : Ty) : Prop :=
  Part P t u ∧ (isNamed u = true → isWrapOrTuple t = true)

/-- An endless chain of a relation, starting from `a`. -/
def Endless {α : Type} (r : α → α → Prop) (a : α) : Prop :=
  ∃ c : Nat → α, c 0 = a ∧ ∀ i, r (c i) (c (i + 1))

/-- Declarations without the combinations in which the macro ignores a field that is not skipped:
`flatten` outside of structs with named fields (rejected by serde), more than one field in a `transparent`
struct (serde allows this if the others are `PhantomData` or have a default). -/
def Plain : Decl → Prop
  | .struct s => (s.transparent = true ∨ s.style = .tuple →
        ∀ f ∈ s.fields, f.skipDe = false → f.flatten = false) ∧
      (s.transparent = true → ∃ f, s.fields.filter (fun f => !f.skipDe) = [f])
  | .enum e => ∀ v ∈ e.variants, v.style = .unit → v.fields = []

/-- The declaration without its skipped fields and variants. -/
def keptOnly : Decl → Decl
  | .struct s => .struct { s with fields := s.fields.filter (fun f => !f.skipDe) }
  | .enum e => .enum { e with variants := (e.variants.filter (fun v => !v.skipDe)).map (fun v =>
      { v with fields := v.fields.filter (fun f => !f.skipDe) }) }

/-- All wrappers removed. -/
def strip : Ty → Ty
  | .prim p => .prim p
  | .wrap _ t => strip t
  | .option t => .option (strip t)
  | .vec t => .vec (strip t)
  | .array n t => .array n (strip t)
  | .hashSet t => .hashSet (strip t)
  | .btreeSet t => .btreeSet (strip t)
  | .hashMap k v => .hashMap (strip k) (strip v)
  | .btreeMap k v => .btreeMap (strip k) (strip v)
  | .tuple ts => .tuple (ts.attach.map (fun ⟨t, _⟩ => strip t))
  | .result t e => .result (strip t) (strip e)
  | .named i => .named i

/-- `[T; N]`, `BTreeSet`, `BTreeMap` replaced by `Vec`, `HashSet`, `HashMap`. -/
def unshadow : Ty → Ty
  | .prim p => .prim p
  | .wrap w t => .wrap w (unshadow t)
  | .option t => .option (unshadow t)
  | .vec t => .vec (unshadow t)
  | .array _ t => .vec (unshadow t)
  | .hashSet t => .hashSet (unshadow t)
  | .btreeSet t => .hashSet (unshadow t)
  | .hashMap k v => .hashMap (unshadow k) (unshadow v)
  | .btreeMap k v => .hashMap (unshadow k) (unshadow v)
  | .tuple ts => .tuple (ts.attach.map (fun ⟨t, _⟩ => unshadow t))
  | .result t e => .result (unshadow t) (unshadow e)
  | .named i => .named i

/-- Replacing the types in a declaration. -/
def Field.mapTy (f : Ty → Ty) (x : Field) : Field := { x with ty := f x.ty }

/-- Changes the type in `from` or `try_from`. -/
def From.mapTy (f : Ty → Ty) : From → From
  | .none => .none
  | .from_ t => .from_ (f t)
  | .tryFrom t => .tryFrom (f t)

/-- Changes all types in a declaration, except the one in `into`, which only matters for what serde writes. -/
def Decl.mapTy (f : Ty → Ty) : Decl → Decl
  | .struct s => .struct { s with fields := s.fields.map (Field.mapTy f), from_ := From.mapTy f s.from_ }
  | .enum e => .enum { e with
      from_ := From.mapTy f e.from_
      variants := e.variants.map (fun v => { v with fields := v.fields.map (Field.mapTy f) }) }

/-- The derived type reached through nothing but wrappers. -/
def wrapsNamed : Ty → Bool
  | .wrap _ t => wrapsNamed t || isNamed t
  | _ => false

/-- Below the top, no wrapper stands (directly, or through other wrappers) around a derived type. -/
inductive NoWrappedRef : Ty → Prop where
  | prim (p : Prim) : NoWrappedRef (.prim p)
  | wrap (w : Wrapper) {t : Ty} : NoWrappedRef t → NoWrappedRef (.wrap w t)
  | option {t : Ty} : wrapsNamed t = false → NoWrappedRef t → NoWrappedRef (.option t)
  | vec {t : Ty} : wrapsNamed t = false → NoWrappedRef t → NoWrappedRef (.vec t)
  | array (n : Nat) {t : Ty} : wrapsNamed t = false → NoWrappedRef t → NoWrappedRef (.array n t)
  | hashSet {t : Ty} : wrapsNamed t = false → NoWrappedRef t → NoWrappedRef (.hashSet t)
  | btreeSet {t : Ty} : wrapsNamed t = false → NoWrappedRef t → NoWrappedRef (.btreeSet t)
  | hashMap {k v : Ty} : wrapsNamed k = false → wrapsNamed v = false → NoWrappedRef k →
      NoWrappedRef v → NoWrappedRef (.hashMap k v)
  | btreeMap {k v : Ty} : wrapsNamed k = false → wrapsNamed v = false → NoWrappedRef k →
      NoWrappedRef v → NoWrappedRef (.btreeMap k v)
  | tuple {ts : List Ty} : (∀ t ∈ ts, NoWrappedRef t) → NoWrappedRef (.tuple ts)
  | result {t e : Ty} : wrapsNamed t = false → wrapsNamed e = false → NoWrappedRef t →
      NoWrappedRef e → NoWrappedRef (.result t e)
  | named (i : Nat) : NoWrappedRef (.named i)

/-- `u` occurs inside the built-in type `t` (`Box<u>`, `Vec<Option<u>>`, ...), at any depth. -/
inductive Behind (P : Program) : Ty → Ty → Prop where
  | part {t u : Ty} : isNamed t = false → Part P t u → Behind P t u
  | step {t u v : Ty} : isNamed t = false → Part P t u → Behind P u v → Behind P t v

end Verif.SchemaSpec
