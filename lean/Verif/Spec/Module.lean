import Verif.Js.Source
import Verif.Ts.Parser

/-!
# TypeScript modules

A reader for what `generate()` writes after the client code: namespaces that contain constants, interfaces, type
aliases and functions. It accepts a subset of TypeScript: everything it accepts is a sequence of declarations and
is given its structure there. Semicolons are inserted as ECMA-262 (12.10) says.
-/

namespace Verif.Spec
open Verif Verif.Js Verif.Ts

/-- A statement in the body of a function: `e;` or `return e;`. -/
inductive Stmt where
  | expr (e : JsExpr)
  | ret (e : JsExpr)

/-- A function declaration. -/
structure Fn where
  isAsync : Bool
  name : Str
  params : List (Str × TsType)
  ret : TsType
  body : List Stmt

/-- A declaration inside of a namespace. -/
inductive Item where
  | const (name : Str) (e : JsExpr)
  | interface (name : Str) (props : List (Str × Bool × TsType))
  | alias (name : Str) (t : TsType)
  | func (f : Fn)

/-- `export namespace name { .. }` -/
structure Ns where
  name : Str
  items : List Item

/-- Names of TypeScript's own types; they cannot be declared. -/
def predefinedTypes : List Str :=
  [lit "any", lit "unknown", lit "never", lit "string", lit "number", lit "boolean", lit "bigint", lit "symbol",
    lit "object", lit "undefined"]

/-- A name that can be declared as a constant and as a type. -/
def declarable (n : Str) : Bool := !(reserved.contains n || predefinedTypes.contains n)

/-- A name that can be declared as a variable, parameter, function or namespace. -/
def bindable (n : Str) : Bool := !reserved.contains n

/-- What has been read of a function. -/
structure Header where
  isAsync : Bool
  name : Str
  params : List (Str × TsType)

/-- Where in a module the reader is. -/
inductive MCur where
  /-- between namespaces -/
  | top
  | topExport
  | nsName
  | nsOpen
  /-- in a namespace, between declarations -/
  | item
  | export
  | constName
  | constEq (n : Str)
  | constE (n : Str) (s : PState)
  | ifaceName
  | ifaceOpen (n : Str)
  | ifaceT (n : Str) (s : TState)
  | aliasName
  | aliasEq (n : Str)
  | aliasT (n : Str) (s : TState)
  | async
  | fnName (isAsync : Bool)
  | fnOpen (h : Header)
  /-- expecting a parameter, or `)` if `first` -/
  | param (first : Bool) (h : Header)
  | paramColon (h : Header) (p : Str)
  | paramT (h : Header) (p : Str) (s : TState)
  | fnColon (h : Header)
  | retT (h : Header) (s : TState)
  /-- in the body of a function, between statements -/
  | stmts (h : Header) (r : TsType) (body : List Stmt)
  /-- after `return` -/
  | ret (h : Header) (r : TsType) (body : List Stmt)
  | exprS (h : Header) (r : TsType) (body : List Stmt) (isRet : Bool) (s : PState)

/-- The namespaces read so far, and the name and declarations of the current one. -/
structure MState where
  done : List Ns
  ns : Str
  items : List Item
  cur : MCur

/-- The expression read, if one is complete. -/
def exprDone : PState → Option JsExpr
  | ([], .have_ e) => some e
  | _ => none

/-- The type read, if one is complete. -/
def typeDone : TState → Option TsType
  | ([], .have_ d) => some (ofDnf d)
  | ([], .named o p) => some (ofDnf (o.add (.name p)))
  | _ => none

/-- Words that continue an expression or type on a new line. -/
def continues : List Str := [lit "in", lit "instanceof", lit "as", lit "satisfies", lit "extends", lit "is"]

/-- A semicolon is inserted before this token, after a complete expression or type that it does not continue. -/
def inserts (t : Tok) (nl : Bool) : Bool :=
  match t with
  | .ident w => nl && !continues.contains w
  | .p '}' => true
  | _ => false

/-- Between the declarations of a namespace. -/
def itemStep (s : MState) : Tok → Option MState
  | .ident w => if w = lit "export" then some { s with cur := .export } else none
  | .p ';' => some { s with cur := .item }
  | .p '}' => some ⟨s.done ++ [⟨s.ns, s.items⟩], [], [], .top⟩
  | _ => none

/-- One more declaration in the current namespace. -/
def MState.add (s : MState) (i : Item) : MState := { s with items := s.items ++ [i], cur := .item }

/-- One more statement. -/
def addStmt (body : List Stmt) (isRet : Bool) (e : JsExpr) : List Stmt :=
  body ++ [if isRet then .ret e else .expr e]

/-- Between the statements of a function. An expression statement starts with an identifier here. -/
def stmtStep (s : MState) (h : Header) (r : TsType) (body : List Stmt) : Tok → Option MState
  | .ident w =>
      if w = lit "return" then some { s with cur := .ret h r body }
      else (needStep [] (.ident w)).map (fun e => { s with cur := .exprS h r body false e })
  | .p ';' => some { s with cur := .stmts h r body }
  | .p '}' => some (s.add (.func ⟨h.isAsync, h.name, h.params, r, body⟩))
  | _ => none

/-- One token; `nl`: a line break precedes it. -/
def mStep (s : MState) (t : Tok) (nl : Bool) : Option MState :=
  match s.cur with
  | .top => match t with
    | .ident w => if w = lit "export" then some { s with cur := .topExport } else none
    | _ => none
  | .topExport => match t with
    | .ident w => if w = lit "namespace" then some { s with cur := .nsName } else none
    | _ => none
  | .nsName => match t with
    | .ident w => if bindable w && !nl then some { s with ns := w, cur := .nsOpen } else none
    | _ => none
  | .nsOpen => match t with
    | .p '{' => some { s with items := [], cur := .item }
    | _ => none
  | .item => itemStep s t
  | .export => match t with
    | .ident w =>
      if w = lit "const" then some { s with cur := .constName }
      else if w = lit "interface" then some { s with cur := .ifaceName }
      else if w = lit "type" then some { s with cur := .aliasName }
      else if w = lit "async" then some { s with cur := .async }
      else if w = lit "function" then some { s with cur := .fnName false }
      else none
    | _ => none
  | .constName => match t with
    | .ident w => if bindable w then some { s with cur := .constEq w } else none
    | _ => none
  | .constEq n => match t with
    | .p '=' => some { s with cur := .constE n ([], .need) }
    | _ => none
  | .constE n e => match pStep e t with
    | some e' => some { s with cur := .constE n e' }
    | none => match exprDone e with
      | some e => if t = .p ';' || inserts t nl then itemStep (s.add (.const n e)) t else none
      | none => none
  | .ifaceName => match t with
    | .ident w => if declarable w && !nl then some { s with cur := .ifaceOpen w } else none
    | _ => none
  | .ifaceOpen n => match t with
    | .p '{' => (tStep ([], .need .none) t).map (fun x => { s with cur := .ifaceT n x })
    | _ => none
  | .ifaceT n x => match tStep x t with
    | some x' => some { s with cur := .ifaceT n x' }
    | none => match typeDone x with
      | some (.obj ps) => itemStep (s.add (.interface n ps)) t
      | _ => none
  | .aliasName => match t with
    | .ident w => if declarable w && !nl then some { s with cur := .aliasEq w } else none
    | _ => none
  | .aliasEq n => match t with
    | .p '=' => some { s with cur := .aliasT n ([], .need .none) }
    | _ => none
  | .aliasT n x => match tStep x t with
    | some x' => some { s with cur := .aliasT n x' }
    | none => match typeDone x with
      | some ty => if t = .p ';' || inserts t nl then itemStep (s.add (.alias n ty)) t else none
      | none => none
  | .async => match t with
    | .ident w => if w = lit "function" && !nl then some { s with cur := .fnName true } else none
    | _ => none
  | .fnName a => match t with
    | .ident w => if bindable w then some { s with cur := .fnOpen ⟨a, w, []⟩ } else none
    | _ => none
  | .fnOpen h => match t with
    | .p '(' => some { s with cur := .param true h }
    | _ => none
  | .param first h => match t with
    | .ident w =>
      if bindable w && !(h.params.map (·.1)).contains w then some { s with cur := .paramColon h w } else none
    | .p ')' => if first then some { s with cur := .fnColon h } else none
    | _ => none
  | .paramColon h p => match t with
    | .p ':' => some { s with cur := .paramT h p ([], .need .none) }
    | _ => none
  | .paramT h p x => match tStep x t with
    | some x' => some { s with cur := .paramT h p x' }
    | none => match typeDone x, t with
      | some ty, .p ',' => some { s with cur := .param false { h with params := h.params ++ [(p, ty)] } }
      | some ty, .p ')' => some { s with cur := .fnColon { h with params := h.params ++ [(p, ty)] } }
      | _, _ => none
  | .fnColon h => match t with
    | .p ':' => some { s with cur := .retT h ([], .need .none) }
    | _ => none
  | .retT h x => match tStep x t with
    | some x' => some { s with cur := .retT h x' }
    | none => match typeDone x, t with
      | some ty, .p '{' => some { s with cur := .stmts h ty [] }
      | _, _ => none
  | .stmts h r body => stmtStep s h r body t
  | .ret h r body =>
      if nl then none else (needStep [] t).map (fun e => { s with cur := .exprS h r body true e })
  | .exprS h r body isRet e => match pStep e t with
    | some e' => some { s with cur := .exprS h r body isRet e' }
    | none => match exprDone e with
      | some e => if t = .p ';' || inserts t nl then stmtStep s h r (addStmt body isRet e) t else none
      | none => none

/-- Many tokens. -/
def mRun (s : MState) : List FTok → Option MState
  | [] => some s
  | t :: r => match mStep s t.1 t.2 with
    | some s' => mRun s' r
    | none => none

/-- The namespaces a source text declares. -/
def readModule (s : Str) : Option (List Ns) :=
  match source s with
  | some ts => match mRun ⟨[], [], [], .top⟩ ts with
    | some ⟨done, _, _, .top⟩ => some done
    | _ => none
  | none => none

set_option maxRecDepth 4000 in
example : readModule (lit "export namespace A { /** doc */ export const B= z.null()\nexport type B = null;\n\n }") =
    some [⟨lit "A", [.const (lit "B") (.call (.member (.var (lit "z")) (lit "null")) []),
      .alias (lit "B") (.name [lit "null"])]⟩] := rfl
set_option maxRecDepth 4000 in
example : readModule (lit "export namespace A { export const B= z.null() export type B = null; }") = none := rfl
set_option maxRecDepth 4000 in
example : readModule (lit "export namespace A { export function f(a: B.C,b: null): null {\n a;\nb\n return\n b} }") = none := rfl
set_option maxRecDepth 4000 in
example : readModule (lit "export namespace A { export function f(a: B.C,b: null): null {\n a;\nb\n return b} }") =
    some [⟨lit "A", [.func ⟨false, lit "f", [(lit "a", .name [lit "B", lit "C"]), (lit "b", .name [lit "null"])],
      .name [lit "null"], [.expr (.var (lit "a")), .expr (.var (lit "b")), .ret (.var (lit "b"))]⟩]⟩] := rfl
set_option maxRecDepth 4000 in
example : readModule (lit "export namespace A { export function f(a: B,a: B): null { } }") = none := rfl
set_option maxRecDepth 4000 in
example : readModule (lit "export namespace A { export interface f [B] }") = none := rfl
set_option maxRecDepth 4000 in
example : readModule (lit "export namespace A { export function delete(): null {} }") = none := rfl

end Verif.Spec
