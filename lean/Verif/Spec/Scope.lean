import Verif.Spec.Module
import Verif.Js.Uses

/-!
# What the names in a generated module refer to

Scoping of TypeScript, for modules as `Verif/Spec/Module.lean` reads them: a name refers to a parameter of the
enclosing function, else to a declaration of the enclosing namespace, else to a namespace of the module, else to
what the client code or the platform declares. Constants and functions are values; interfaces and aliases are
types. The first part of a qualified type name refers to a namespace.
-/

namespace Verif.Spec
open Verif Verif.Js Verif.Ts

/-- The name declared. -/
def Item.name : Item → Str
  | .const n _ => n
  | .interface n _ => n
  | .alias n _ => n
  | .func f => f.name

/-- The item declares a constant or function with this name. -/
def Item.isValue (x : Str) : Item → Bool
  | .const n _ => n = x
  | .func f => f.name = x
  | _ => false

/-- Declares the constant `x`. -/
def Item.isConst (x : Str) : Item → Bool
  | .const n _ => n = x
  | _ => false

/-- The item declares a type with this name. -/
def Item.isType (x : Str) : Item → Bool
  | .interface n _ => n = x
  | .alias n _ => n = x
  | _ => false

/-- What a name refers to. -/
inductive Target where
  | param | member | namespace | outside
  deriving DecidableEq

/-- What the variable `x` refers to in a function with these parameters (none for a constant) of the namespace. -/
def target (M : List Ns) (N : Ns) (params : List Str) (x : Str) : Target :=
  if params.contains x then .param
  else if N.items.any (Item.isValue x) then .member
  else if M.any (fun R => R.name = x) then .namespace
  else .outside

/-- `x.y` refers to the constant `y` of the namespace `x` of the module. -/
def RefersToConst (M : List Ns) (N : Ns) (params : List Str) (x y : Str) : Prop :=
  target M N params x = .namespace ∧ ∃ R ∈ M, R.name = x ∧ R.items.any (Item.isConst y) = true

/-- `x.y` refers to the type `y` of the namespace `x` of the module. -/
def RefersToType (M : List Ns) (x y : Str) : Prop := ∃ R ∈ M, R.name = x ∧ R.items.any (Item.isType y) = true

/-- Keywords; nothing else can have these names. -/
def keywordTypes : List Str := [lit "string", lit "number", lit "boolean", lit "null", lit "undefined"]

/-- Types of the platform and, `Store`, of the client code. -/
def outsideTypes : List Str := [lit "Array", lit "Set", lit "Map", lit "Promise", lit "Store"]

/-- The name of a type, used in the namespace, refers to what it should. -/
def TypeNameOk (M : List Ns) (N : Ns) (path : List Str) : Prop :=
  match path with
  | [x] => x ∈ keywordTypes ∨ (x ∈ outsideTypes ∧ N.items.any (Item.isType x) = false)
  | [x, y] => RefersToType M x y
  | _ => False

/-- All names in the type have the property. -/
inductive NamesIn (Q : List Str → Prop) : TsType → Prop where
  | name (p : List Str) : Q p → NamesIn Q (.name p)
  | app (p : List Str) (ts : List TsType) : Q p → (∀ t ∈ ts, NamesIn Q t) → NamesIn Q (.app p ts)
  | str (s : Str) : NamesIn Q (.str s)
  | tuple (ts : List TsType) : (∀ t ∈ ts, NamesIn Q t) → NamesIn Q (.tuple ts)
  | obj (ps : List (Str × Bool × TsType)) : (∀ p ∈ ps, NamesIn Q p.2.2) → NamesIn Q (.obj ps)
  | union (ts : List TsType) : (∀ t ∈ ts, NamesIn Q t) → NamesIn Q (.union ts)
  | inter (ts : List TsType) : (∀ t ∈ ts, NamesIn Q t) → NamesIn Q (.inter ts)

/-- The expression of a statement. -/
def Stmt.e : Stmt → JsExpr
  | .expr e => e
  | .ret e => e

/-- The expressions of a declaration; for a function, with the names of its parameters. -/
def Item.exprs : Item → List (Option (List Str) × JsExpr)
  | .const _ e => [(none, e)]
  | .func f => f.body.map (fun s => (some (f.params.map (·.1)), s.e))
  | _ => []

/-- The types of a declaration. -/
def Item.types : Item → List TsType
  | .interface _ ps => [.obj ps]
  | .alias _ t => [t]
  | .func f => f.ret :: f.params.map (·.2)
  | .const _ _ => []

/-- Names the client code declares: `z` (imported from zod) and the two functions. -/
def clientNames : List Str := [lit "z", lit "request", lit "subscribe"]

/-- The variable (with the property read off it, if any) is meant to be one of the client code. -/
def OfClient (u : Str × Option Str) : Prop := u.1 = lit "z" ∨ u = (lit "request", none) ∨ u = (lit "subscribe", none)

/-- A parameter, or `arguments`, in a function with these parameters. -/
def OfArgs (params : Option (List Str)) (u : Str × Option Str) : Prop :=
  ∃ ps, params = some ps ∧ u.2 = none ∧ (u.1 ∈ ps ∨ u.1 = lit "arguments")

/-- Every reference in the module, except those to the client code, refers to a declaration of the module, to an
argument or to a type of the platform. -/
def AllResolved (M : List Ns) : Prop :=
  ∀ N ∈ M, ∀ i ∈ N.items,
    (∀ x ∈ i.exprs, ∀ u ∈ x.2.uses, OfClient u ∨ OfArgs x.1 u ∨
      ∃ y, u.2 = some y ∧ RefersToConst M N (x.1.getD []) u.1 y) ∧
    ∀ t ∈ i.types, NamesIn (TypeNameOk M N) t

/-- Every use of a name of the client code refers to what the client code declares. -/
def ClientReached (M : List Ns) : Prop :=
  ∀ N ∈ M, ∀ i ∈ N.items, ∀ x ∈ i.exprs, ∀ u ∈ x.2.uses, OfClient u → target M N (x.1.getD []) u.1 = .outside

/-- No namespace, and in a namespace no value and no type, is declared twice. -/
def NoClash (M : List Ns) : Prop :=
  (M.map (·.name)).Nodup ∧ ∀ N ∈ M, ∀ x, (N.items.filter (Item.isValue x)).length ≤ 1 ∧ (N.items.filter (Item.isType x)).length ≤ 1

end Verif.Spec
