import Verif.Spec.Names
import Verif.Spec.TsTypes
import Verif.Spec.Schema
import Verif.Spec.Decls
import Verif.Spec.Docs
import Verif.Spec.Stubs
import Verif.Codegen.Rpc
import Verif.Js.Value

/-!
# The module that a program should have

Which namespaces, types and functions the module contains, as syntax trees (`Verif/Spec/Module.lean`).
-/

namespace Verif.Spec
open Verif Verif.Js Verif.Ts Verif.Schema Verif.SchemaSpec Verif.Codegen

/-- `export` of a type: an alias, or an interface if it is an object type. -/
inductive DeclaresType (name : Str) (T : TsType) : Item → Prop where
  | alias : DeclaresType name T (.alias name T)
  | interface (ps : List (Str × Bool × TsType)) : T = .obj ps → DeclaresType name T (.interface name ps)

/-- The declarations for the `x.2`-th type `x.1` of the program: a constant with the name of the type that is its
schema, and a type with the name of the type that is its type definition. -/
def TypeItems (P : Program) (x : Decl × Nat) (l : List Item) : Prop :=
  ∃ s e t T i, Returns P .schema (.named x.2) s ∧ readExpr s = some e ∧
    Returns P .typeDef (.named x.2) t ∧ readType t = some T ∧ DeclaresType x.1.name T i ∧ l = [.const x.1.name e, i]

/-- A parameter for the argument: its name, and the type that is its inline type. -/
def ParamOf (P : Program) (a : Str × Ty) (p : Str × TsType) : Prop :=
  p.1 = a.1 ∧ ∃ s, Returns P .inline a.2 s ∧ readType s = some p.2

/-- The schema for the argument: its inline schema. -/
def SchemaOf (P : Program) (a : Str × Ty) (e : JsExpr) : Prop :=
  ∃ s, Returns P .inlineSchema a.2 s ∧ readExpr s = some e

/-- The declaration for a function of the namespace: its stub (`Verif/Spec/Stubs.lean`), with a parameter and a
schema for each argument, in order, and with the type definition of what it returns. -/
def StubItem (P : Program) (ns : Str) (f : RpcItem) (i : Item) : Prop :=
  ∃ ps es t T, All2 (ParamOf P) f.args ps ∧ All2 (SchemaOf P) f.args es ∧
    Returns P .typeDef f.output t ∧ readType t = some T ∧ i = .func (stub f.kind ns f.ident ps es T)

/-- The module for the namespaces with these names. -/
structure ModuleOf (P : Program) (impls : List (Str × List RpcItem)) (names : List Str) (M : List Ns) : Prop where
  /-- one namespace for each name that has a type or a function, in order -/
  sorted : (M.map (·.name)).Pairwise strLt
  names : ∀ x, x ∈ M.map (·.name) ↔ x ∈ names ∧ ((∃ d ∈ P, d.ns = x) ∨ ∃ b ∈ impls, b.1 = x ∧ b.2 ≠ [])
  /-- in it, in some order all its types, and after them in some order all its functions -/
  items : ∀ N ∈ M, ∃ ds fs ls is, ds.Perm (P.zipIdx.filter (fun x => x.1.ns = N.name)) ∧
    fs.Perm ((impls.filter (fun b => b.1 = N.name)).flatMap (·.2)) ∧
    All2 (TypeItems P) ds ls ∧ All2 (StubItem P N.name) fs is ∧ N.items = ls.flatten ++ is

/-- `export` of a type, with the prefix and suffix that the options have for aliases and for interfaces. -/
inductive DeclaresTypeAs (o : Options) (name : Str) (T : TsType) : Item → Prop where
  | alias : DeclaresTypeAs o name T (.alias (o.prefixType ++ name ++ o.suffixType) T)
  | interface (ps : List (Str × Bool × TsType)) : T = .obj ps →
      DeclaresTypeAs o name T (.interface (o.prefixInterface ++ name ++ o.suffixInterface) ps)

/-- The name of the constant for a type with this name. -/
def constName (o : Options) (name : Str) : Str := o.prefixSchema ++ name ++ o.suffixSchema

/-- As `TypeItems`, with the prefixes and suffixes of the options. -/
def TypeItemsWith (o : Options) (P : Program) (x : Decl × Nat) (l : List Item) : Prop :=
  ∃ s e t T i, Returns P .schema (.named x.2) s ∧ readExpr s = some e ∧
    Returns P .typeDef (.named x.2) t ∧ readType t = some T ∧ DeclaresTypeAs o x.1.name T i ∧
    l = [.const (constName o x.1.name) e, i]

/-- As `ModuleOf`, with the prefixes and suffixes of the options. -/
structure ModuleWith (o : Options) (P : Program) (impls : List (Str × List RpcItem)) (names : List Str) (M : List Ns) : Prop where
  sorted : (M.map (·.name)).Pairwise strLt
  names : ∀ x, x ∈ M.map (·.name) ↔ x ∈ names ∧ ((∃ d ∈ P, d.ns = x) ∨ ∃ b ∈ impls, b.1 = x ∧ b.2 ≠ [])
  items : ∀ N ∈ M, ∃ ds fs ls is, ds.Perm (P.zipIdx.filter (fun x => x.1.ns = N.name)) ∧
    fs.Perm ((impls.filter (fun b => b.1 = N.name)).flatMap (·.2)) ∧
    All2 (TypeItemsWith o P) ds ls ∧ All2 (StubItem P N.name) fs is ∧ N.items = ls.flatten ++ is

/-- With the prefixes and suffixes of the options, names of types can still be declared. -/
structure GoodAffixes (o : Options) (P : Program) : Prop where
  consts : ∀ d ∈ P, isIdent (constName o d.name) = true ∧ bindable (constName o d.name) = true
  aliases : ∀ d ∈ P, isIdent (o.prefixType ++ d.name ++ o.suffixType) = true ∧
    declarable (o.prefixType ++ d.name ++ o.suffixType) = true
  interfaces : ∀ d ∈ P, isIdent (o.prefixInterface ++ d.name ++ o.suffixInterface) = true ∧
    declarable (o.prefixInterface ++ d.name ++ o.suffixInterface) = true

/-- Names of the function and its arguments that can be declared in JavaScript, all different (as Rust requires). -/
structure GoodFn (f : RpcItem) : Prop where
  name : isIdent f.ident = true ∧ bindable f.ident = true
  args : ∀ a ∈ f.args, isIdent a.1 = true ∧ bindable a.1 = true
  nodup : (f.args.map (·.1)).Nodup

/-- Nothing in the program makes the text of its module invalid: names can be written into JavaScript, every type
that is declared as an interface is an object type (C14), no documentation contains an end-of-comment mark (C15). -/
structure Printable (P : Program) (impls : List (Str × List RpcItem)) : Prop where
  names : GoodNames P
  typeNames : GoodTypeNames P
  styled : WellStyled P
  plain : ∀ d ∈ P, Plain d
  declarable : Declarable P
  interfaces : ∀ i, ¬ BrokenInterface P (.named i)
  docs : ∀ d ∈ P, ∀ s ∈ DocsSpec.docStrings d.attrs, ¬ lit "*/" <:+: s
  rpcNames : ∀ b ∈ impls, isIdent b.1 = true ∧ bindable b.1 = true
  functions : ∀ b ∈ impls, ∀ f ∈ b.2, GoodFn f

/-- The names of the types and of the functions of a namespace. -/
def declaredNames (P : Program) (impls : List (Str × List RpcItem)) (ns : Str) : List Str :=
  (P.filter (fun d => d.ns = ns)).map (·.name) ++ ((impls.filter (fun b => b.1 = ns)).flatMap (·.2)).map (·.ident)

/-- A type, function or argument of the program has this name. -/
def Called (P : Program) (impls : List (Str × List RpcItem)) (x : Str) : Prop :=
  (∃ d ∈ P, d.name = x) ∨ ∃ b ∈ impls, ∃ f ∈ b.2, f.ident = x ∨ ∃ a ∈ f.args, a.1 = x

end Verif.Spec
