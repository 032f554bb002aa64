import Verif.Spec.Grammar
import Verif.Spec.Module

/-!
# The grammar of modules

The declarations of a module as productions over tokens that are marked with line breaks (`SpellsMarked`), with the
insertion of semicolons (ECMA-262, 12.10). `readModule` and `readFile` are proved to accept exactly this in
`Ts/ModuleSound.lean`.
-/

namespace Verif.Spec
open Verif Verif.Js Verif.Ts

/-- The tokens without the marks. -/
def unmark (ts : List FTok) : List Tok := ts.map (·.1)

/-- Before this text an expression or type ends: at a semicolon or brace, or at a word on a new line that does not
continue it. -/
inductive EndsBefore : List FTok → Prop
  | semicolon {nl r} : EndsBefore ((.p ';', nl) :: r)
  | brace {nl r} : EndsBefore ((.p '}', nl) :: r)
  | line {w r} : w ∉ continues → EndsBefore ((.ident w, true) :: r)

/-- The rest of the body of a function, up to the brace that closes it. -/
inductive Statements : List FTok → List Stmt → Prop
  | close {nl} : Statements [(.p '}', nl)] []
  | empty {nl ts ss} : Statements ts ss → Statements ((.p ';', nl) :: ts) ss
  /-- An expression statement starts with a name here. -/
  | expr {w nl ts e rest ss} : Operand (.ident w :: unmark ts) e → EndsBefore rest → Statements rest ss →
      Statements ((.ident w, nl) :: ts ++ rest) (.expr e :: ss)
  /-- `return e`, with no line break after `return` -/
  | ret {nl t ts e rest ss} : Operand (t :: unmark ts) e → EndsBefore rest → Statements rest ss →
      Statements ((.ident (lit "return"), nl) :: (t, false) :: ts ++ rest) (.ret e :: ss)

/-- One or more parameters `p: T`, with commas in between. -/
inductive Parameters : List FTok → List (Str × TsType) → Prop
  | one {p nl nl' ts d} : p ∉ reserved → Alternatives (unmark ts) d → Parameters ((.ident p, nl) :: (.p ':', nl') :: ts) [(p, ofDnf d)]
  | more {p nl nl' nl'' ts d rest ps} : p ∉ reserved → Alternatives (unmark ts) d → Parameters rest ps →
      Parameters ((.ident p, nl) :: (.p ':', nl') :: ts ++ (.p ',', nl'') :: rest) ((p, ofDnf d) :: ps)

/-- No parameters, or a list of them. -/
inductive OptParameters : List FTok → List (Str × TsType) → Prop
  | none : OptParameters [] []
  | some {ts ps} : Parameters ts ps → OptParameters ts ps

/-- `function`, or `async function` on one line -/
inductive FunctionWord : Bool → List FTok → Prop
  | plain {nl} : FunctionWord false [(.ident (lit "function"), nl)]
  | async {nl} : FunctionWord true [(.ident (lit "async"), nl), (.ident (lit "function"), false)]

/-- The rest of a namespace, up to the brace that closes it. -/
inductive Declarations : List FTok → List Item → Prop
  | close {nl} : Declarations [(.p '}', nl)] []
  | empty {nl ts is} : Declarations ts is → Declarations ((.p ';', nl) :: ts) is
  /-- `export const n = e` -/
  | const {n n1 n2 n3 n4 ts e rest is} : n ∉ reserved → Operand (unmark ts) e → EndsBefore rest → Declarations rest is →
      Declarations ((.ident (lit "export"), n1) :: (.ident (lit "const"), n2) :: (.ident n, n3) :: (.p '=', n4) :: ts ++ rest)
        (.const n e :: is)
  /-- `export interface n { .. }` -/
  | interface {n n1 n2 n3 ts ps rest is} : n ∉ reserved → n ∉ predefinedTypes → Primary (.p '{' :: unmark ts) (.obj ps) →
      Declarations rest is →
      Declarations ((.ident (lit "export"), n1) :: (.ident (lit "interface"), n2) :: (.ident n, false) :: (.p '{', n3) :: ts ++ rest)
        (.interface n ps :: is)
  /-- `export type n = T` -/
  | alias {n n1 n2 n3 ts d rest is} : n ∉ reserved → n ∉ predefinedTypes → Alternatives (unmark ts) d → EndsBefore rest →
      Declarations rest is →
      Declarations ((.ident (lit "export"), n1) :: (.ident (lit "type"), n2) :: (.ident n, false) :: (.p '=', n3) :: ts ++ rest)
        (.alias n (ofDnf d) :: is)
  /-- `export async function n(ps): T { ss }`; the names of the parameters differ. -/
  | func {n n1 n2 n3 n4 n5 n6 isAsync fn tp ps tr d tb ss rest is} : n ∉ reserved → FunctionWord isAsync fn → OptParameters tp ps →
      (ps.map (·.1)).Nodup → Alternatives (unmark tr) d → Statements tb ss → Declarations rest is →
      Declarations ((.ident (lit "export"), n1) :: fn ++ (.ident n, n2) :: (.p '(', n3) :: tp ++ (.p ')', n4) :: (.p ':', n5) ::
        tr ++ (.p '{', n6) :: tb ++ rest) (.func ⟨isAsync, n, ps, ofDnf d, ss⟩ :: is)

/-- `export namespace n { .. }`, any number of times. -/
inductive Namespaces : List FTok → List Ns → Prop
  | nil : Namespaces [] []
  | more {n n1 n2 n3 ts is rest M} : n ∉ reserved → Declarations ts is → Namespaces rest M →
      Namespaces ((.ident (lit "export"), n1) :: (.ident (lit "namespace"), n2) :: (.ident n, false) :: (.p '{', n3) :: ts ++ rest)
        (⟨n, is⟩ :: M)

/-- The text of a module is the text of these namespaces. -/
def IsModuleText (s : Str) (M : List Ns) : Prop := ∃ ts, SpellsMarked false s ts ∧ Namespaces ts M

/-- Every bracket is closed by its partner, and nothing else is. -/
inductive Balanced : List Tok → Prop
  | nil : Balanced []
  | tok {t ts} : t ∉ [Tok.p '(', .p ')', .p '[', .p ']', .p '{', .p '}'] → Balanced ts → Balanced (t :: ts)
  | group {c d ts rest} : (c, d) ∈ [('(', ')'), ('[', ']'), ('{', '}')] → Balanced ts → Balanced rest →
      Balanced (.p c :: ts ++ .p d :: rest)

end Verif.Spec
