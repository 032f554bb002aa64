import Verif.Codegen.Generate
import Verif.Spec.Module
import Verif.Schema.Types

/-!
# Declarations of a TypeScript module

A reader for `export const NAME = EXPR`, `export interface NAME { .. }` and `export type NAME = TYPE;`.
-/

namespace Verif.Spec
open Verif Verif.Js Verif.Ts Verif.Codegen Verif.Schema

/-- `export type name = ..` or `export interface name {..}` -/
inductive TsDecl where
  | const (name : Str) (e : JsExpr)
  | interface (name : Str) (props : List (Str × Bool × TsType))
  | alias (name : Str) (t : TsType)

/-- The name declared. -/
def TsDecl.name : TsDecl → Str
  | .const n _ => n
  | .interface n _ => n
  | .alias n _ => n

/-- The type that is declared. -/
def TsDecl.type? : TsDecl → Option TsType
  | .const _ _ => none
  | .interface _ ps => some (.obj ps)
  | .alias _ t => some t


/-- The body of an interface is one object type, in braces. -/
def parseInterface (ts : List Tok) : Option (List (Str × Bool × TsType)) :=
  match ts.head?, parseType ts with
  | some (.p '{'), some (.obj ps) => some ps
  | _, _ => none

/-- Reads a token sequence as one declaration. -/
def parseDecl : List Tok → Option TsDecl
  | .ident e :: .ident k :: .ident n :: rest =>
    if e = lit "export" && declarable n then
      if k = lit "interface" then (parseInterface rest).map (.interface n)
      else match rest with
        | .p '=' :: rest =>
          if k = lit "const" then (parseExpr rest).map (.const n)
          else if k = lit "type" && rest.getLast? = some (.p ';') then (parseType rest.dropLast).map (.alias n)
          else none
        | _ => none
    else none
  | _ => none

/-- The declaration a text is. -/
def readDecl (s : Str) : Option TsDecl :=
  match lex s with
  | some ts => parseDecl ts
  | none => none

set_option maxRecDepth 2000 in
example : readDecl (lit "export interface A {a: number}") =
    some (.interface (lit "A") [(lit "a", false, .name [lit "number"])]) := rfl
example : readDecl (lit "export type A = null;") = some (.alias (lit "A") (.name [lit "null"])) := rfl
example : readDecl (lit "export const A= z") = some (.const (lit "A") (.var (lit "z"))) := rfl
example : readDecl (lit "export interface A [B]") = none := rfl
example : readDecl (lit "export interface A ({})") = none := rfl
example : readDecl (lit "export type string = B;") = none := rfl
example : readDecl (lit "export type A = B") = none := rfl

/-- The two declarations `generate()` writes for a registered type, without documentation. -/
def constText (m : Member) : Str := lit "export const " ++ m.name ++ lit "= " ++ m.schema

/-- The declaration of the type that is written for a member: `core/src/rpc/server.rs:102-124`. -/
def typeDeclText (m : Member) : Str :=
  match m.typeDef with
  | .interface body => lit "export interface " ++ m.name ++ lit " " ++ body
  | .type body => lit "export type " ++ m.name ++ lit " = " ++ body ++ lit ";"

/-- All names of the program can be declared. -/
def Declarable (P : Program) : Prop := ∀ d ∈ P, declarable d.name = true

/-- The type is declared with `interface` but its text is not an object type: a tuple struct with other than one
field, a struct with a flattened field; or `type_def()` is taken over from such a type. -/
inductive BrokenInterface (P : Program) : Ty → Prop where
  | tuple (i : Nat) (s : StructDecl) : P[i]? = some (.struct s) → s.from_.ty? = none → s.transparent = false →
      s.style = .tuple → (s.fields.filter (fun f => !f.skipDe)).length ≠ 1 → BrokenInterface P (.named i)
  | flatten (i : Nat) (s : StructDecl) (f : Field) : P[i]? = some (.struct s) → s.from_.ty? = none →
      s.transparent = false → s.style = .named → f ∈ s.fields → f.skipDe = false → f.flatten = true →
      BrokenInterface P (.named i)
  | wrap (w : Wrapper) (t : Ty) : BrokenInterface P t → BrokenInterface P (.wrap w t)
  | enumFrom (i : Nat) (e : EnumDecl) (t : Ty) : P[i]? = some (.enum e) → e.from_.ty? = some t →
      BrokenInterface P t → BrokenInterface P (.named i)

end Verif.Spec
