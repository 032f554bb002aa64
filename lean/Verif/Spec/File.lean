import Verif.Spec.Module

/-!
# The generated file

A file that starts with statements of any kind (the client code), followed by namespaces as in
`Verif/Spec/Module.lean`. Of the statements in front only the names they declare at top level are read, and that their
brackets match; operators of several characters are read as several tokens.
-/

namespace Verif.Spec
open Verif Verif.Js

/-- A declaration at top level: its keyword and its name. -/
structure TopDecl where
  keyword : Str
  name : Str
  deriving DecidableEq, Repr

/-- Keywords that are followed by the name they declare. -/
def declKeywords : List Str := [lit "const", lit "let", lit "function", lit "type", lit "interface", lit "class", lit "enum"]

/-- The brackets that are open (innermost first), the tokens before (last two), and the declarations so far (last
first). -/
structure FState where
  opened : List Char
  prev : Option Tok
  prev2 : Option Tok
  decls : List TopDecl
  deriving DecidableEq

/-- The bracket that closes a bracket. -/
def closer : Char → Option Char
  | '(' => some ')'
  | '[' => some ']'
  | '{' => some '}'
  | _ => none

/-- Closing brackets. -/
def isCloser (c : Char) : Bool := c = ')' || c = ']' || c = '}'

/-- The declaration that the identifier completes: `const x`, `import * as x`. -/
def declares (s : FState) (w : Str) : Option TopDecl :=
  match s.prev with
  | some (.ident k) =>
    if declKeywords.contains k && s.prev2 != some (.p '.') then some ⟨k, w⟩
    else if k = lit "as" && s.prev2 = some (.p '*') then some ⟨lit "import", w⟩
    else none
  | _ => none

/-- One token of the file. -/
def fStep (s : FState) (t : Tok) : Option FState :=
  let s' := { s with prev := some t, prev2 := s.prev }
  match t with
  | .p c => match closer c with
    | some d => some { s' with opened := d :: s.opened }
    | none =>
      if isCloser c then
        match s.opened with
        | d :: r => if c = d then some { s' with opened := r } else none
        | [] => none
      else some s'
  | .ident w =>
    match s.opened, declares s w with
    | [], some d => some { s' with decls := d :: s.decls }
    | _, _ => some s'
  | _ => some s'

/-- Reads statements up to the first namespace, then the namespaces. -/
def fRun (s : FState) : List FTok → Option (List TopDecl × List Ns)
  | [] => if s.opened = [] then some (s.decls.reverse, []) else none
  | (.ident a, n1) :: (.ident b, n2) :: r =>
    if s.opened = [] ∧ a = lit "export" ∧ b = lit "namespace" then
      match mRun ⟨[], [], [], .top⟩ ((.ident a, n1) :: (.ident b, n2) :: r) with
      | some ⟨done, _, _, .top⟩ => some (s.decls.reverse, done)
      | _ => none
    else match fStep s (.ident a) with
      | some s' => fRun s' ((.ident b, n2) :: r)
      | none => none
  | (t, _) :: r => match fStep s t with
    | some s' => fRun s' r
    | none => none

/-- The names a file declares at top level before its namespaces, and the namespaces. -/
def readFile (s : Str) : Option (List TopDecl × List Ns) :=
  match source s with
  | some ts => fRun ⟨[], none, none, []⟩ ts
  | none => none

/-- It declares a value, not only a type. -/
def TopDecl.isValue (d : TopDecl) : Bool := d.keyword != lit "type" && d.keyword != lit "interface"

/-- The values of the browser that the client code uses. `src/rpc/clients/static/websocket_client.ts:14` (`Set`), 26
(`clearTimeout`), 38 (`setTimeout`), 53 (`console`), 54 (`WebSocket`), 57 and 143 (`JSON`), 81 and 177 (`Promise`), 181
(`performance`). -/
def browserValues : List Str :=
  [lit "Set", lit "clearTimeout", lit "setTimeout", lit "console", lit "WebSocket", lit "JSON", lit "Promise", lit "performance"]

/-- The declarations at top level do not get into each other's way. A namespace declares a value when anything is in
it. (TypeScript lets a namespace share its name with an exported function; this counts as two declarations here.) -/
structure TopLevelOk (D : List TopDecl) (M : List Ns) : Prop where
  /-- no value is declared twice -/
  distinct : ((D.filter TopDecl.isValue).map (·.name) ++ M.map (·.name)).Nodup
  /-- what the client code takes from the browser is not hidden by a namespace -/
  browser : ∀ N ∈ M, N.name ∉ browserValues

set_option maxRecDepth 8000 in
example : readFile (lit "import * as z from \"zod\";\nexport async function f<T>(a: () => void) { const b = [1]; }\ntype A = { b: number };\nexport namespace N { }") =
    some ([⟨lit "import", lit "z"⟩, ⟨lit "function", lit "f"⟩, ⟨lit "type", lit "A"⟩], [⟨lit "N", []⟩]) := rfl
set_option maxRecDepth 4000 in
example : readFile (lit "const a = (1];") = none := rfl

end Verif.Spec
