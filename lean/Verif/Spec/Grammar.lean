import Verif.Ts.Parser

/-!
# The grammars of JavaScript and TypeScript

Which texts are which tokens, which tokens are which expression, and which are which type, as productions: the parts
of ECMA-262 (12 Lexical Grammar, 13 Expressions) and of TypeScript that generated code uses. Nothing here is computed;
the readers (`lex`, `source`, `readExpr`, `readType`) are proved to accept exactly this in `Js/LexSound.lean`, `Js/SourceSound.lean`,
`Js/ExprSound.lean` and `Ts/TypeSound.lean`.
-/

namespace Verif.Js
open Verif

/-- The character, if there is one, does not satisfy `p`. -/
def NotNext (p : Char → Prop) : Str → Prop
  | [] => True
  | c :: _ => ¬ p c

/-- The text is this token, if this text follows. Names and numbers extend as far as they can. -/
inductive Lexeme : Str → Tok → Str → Prop
  | name {c w r} : isDigit c = false → (∀ x ∈ c :: w, isWordChar x = true) → NotNext (fun x => isWordChar x = true) r →
      Lexeme (c :: w) (.ident (c :: w)) r
  /-- A decimal integer without leading zeros; digits after a point and exponents are not used. -/
  | number {c w r} : (∀ x ∈ c :: w, isDigit x = true) → (c = '0' → w = []) → NotNext (fun x => isWordChar x = true ∨ x = '.') r →
      Lexeme (c :: w) (.num (digitsVal (c :: w))) r
  /-- A string in double quotes, on one line, without escapes. -/
  | string {w r} : (∀ x ∈ w, x ∉ ['"', '\\', '\n', '\r']) → Lexeme ('"' :: w ++ ['"']) (.str w) r
  | arrow {r} : Lexeme ['=', '>'] .arrow r
  | equals {r} : NotNext (· = '>') r → Lexeme ['='] (.p '=') r
  | punct {c r} : c ∈ ['.', ',', ':', '(', ')', '[', ']', '{', '}', '-', '?', '|', '&', '<', '>', ';', '!', '+', '*'] →
      Lexeme [c] (.p c) r

/-- The text is this sequence of tokens. -/
inductive Spells : Str → List Tok → Prop
  | nil : Spells [] []
  | space {c r ts} : c ∈ [' ', '\n', '\t', '\r'] → Spells r ts → Spells (c :: r) ts
  | token {w t r ts} : Lexeme w t r → Spells r ts → Spells (w ++ r) (t :: ts)

/-- The text is this sequence of tokens, between which there may be comments. Each token is marked with whether there is a
line break between it and the token before; `nl` says whether there is one before the text. -/
inductive SpellsMarked : Bool → Str → List (Tok × Bool) → Prop
  | nil {nl} : SpellsMarked nl [] []
  | space {nl c r ts} : c ∈ [' ', '\t'] → SpellsMarked nl r ts → SpellsMarked nl (c :: r) ts
  | newline {nl c r ts} : c ∈ ['\n', '\r'] → SpellsMarked true r ts → SpellsMarked nl (c :: r) ts
  /-- `// ..` up to the end of the line -/
  | line {nl w r ts} : (∀ x ∈ w, x ∉ ['\n', '\r']) → NotNext (fun x => x ∉ ['\n', '\r']) r → SpellsMarked nl r ts →
      SpellsMarked nl ('/' :: '/' :: w ++ r) ts
  /-- `/* .. */`, up to the first `*/` -/
  | block {nl w r ts} : (∀ a b, w ++ ['*'] ≠ a ++ '*' :: '/' :: b) → SpellsMarked (nl || w.any (fun x => x = '\n' || x = '\r')) r ts →
      SpellsMarked nl ('/' :: '*' :: w ++ '*' :: '/' :: r) ts
  | token {nl w t r ts} : Lexeme w t r → SpellsMarked false r ts → SpellsMarked nl (w ++ r) ((t, nl) :: ts)

mutual

/-- *LeftHandSideExpression*: what may be called and have members. -/
inductive Operand : List Tok → JsExpr → Prop
  | var {w} : w ∉ reserved ∨ w = lit "arguments" → Operand [.ident w] (.var w)
  | num {n} : Operand [.num n] (.num n)
  | str {s} : Operand [.str s] (.str s)
  | arr0 : Operand [.p '[', .p ']'] (.arr [])
  | arr {ts es} : Elements ts es → Operand (.p '[' :: ts ++ [.p ']']) (.arr es)
  | obj0 : Operand [.p '{', .p '}'] (.obj [] [])
  | obj {ts ks vs} : Properties ts ks vs → Operand (.p '{' :: ts ++ [.p '}']) (.obj ks vs)
  | member {ts e w} : Operand ts e → Operand (ts ++ [.p '.', .ident w]) (.member e w)
  | call0 {ts f} : Operand ts f → Operand (ts ++ [.p '(', .p ')']) (.call f [])
  | call {ts f as es} : Operand ts f → Elements as es → Operand (ts ++ .p '(' :: as ++ [.p ')']) (.call f es)

/-- *AssignmentExpression*; the body of an arrow function starts with a name here. -/
inductive Expression : List Tok → JsExpr → Prop
  | operand {ts e} : Operand ts e → Expression ts e
  | neg {n : Nat} : Expression [.p '-', .num n] (.num (-(n : Int)))
  | arrow {w ts e} : w ∉ reserved → Operand (.ident w :: ts) e →
      Expression (.p '(' :: .p ')' :: .arrow :: .ident w :: ts) (.arrow e)

/-- An element of an array or an argument. -/
inductive Element : List Tok → JsExpr → Prop
  | expr {ts e} : Expression ts e → Element ts e
  | spread {ts e} : Expression ts e → Element (.p '.' :: .p '.' :: .p '.' :: ts) (.spread e)

/-- One or more of them, with commas in between. -/
inductive Elements : List Tok → List JsExpr → Prop
  | one {ts e} : Element ts e → Elements ts [e]
  | more {ts es ts' e} : Elements ts es → Element ts' e → Elements (ts ++ .p ',' :: ts') (es ++ [e])

/-- One or more properties, with commas in between. -/
inductive Properties : List Tok → List Str → List JsExpr → Prop
  | one {k ts e} : Expression ts e → Properties (.ident k :: .p ':' :: ts) [k] [e]
  | more {ts ks vs k ts' e} : Properties ts ks vs → Expression ts' e →
      Properties (ts ++ .p ',' :: .ident k :: .p ':' :: ts') (ks ++ [k]) (vs ++ [e])

end

end Verif.Js

namespace Verif.Ts
open Verif Verif.Js

/-- A (qualified) name. -/
inductive TypeName : List Tok → List Str → Prop
  | one {w} : startsType w = true → TypeName [.ident w] [w]
  | dot {ts p w} : TypeName ts p → TypeName (ts ++ [.p '.', .ident w]) (p ++ [w])

mutual

/-- A type that may be an operand of `&`. -/
inductive Primary : List Tok → TsType → Prop
  | name {ts p} : TypeName ts p → Primary ts (.name p)
  | app {ts p as Ts} : TypeName ts p → Types as Ts → Primary (ts ++ .p '<' :: as ++ [.p '>']) (.app p Ts)
  | str {s} : Primary [.str s] (.str s)
  | tuple0 : Primary [.p '[', .p ']'] (.tuple [])
  | tuple {ts Ts} : Types ts Ts → Primary (.p '[' :: ts ++ [.p ']']) (.tuple Ts)
  | obj0 : Primary [.p '{', .p '}'] (.obj [])
  | obj {ts ps} : Members ts ps → Primary (.p '{' :: ts ++ [.p '}']) (.obj ps)
  | paren {ts d} : Alternatives ts d → Primary (.p '(' :: ts ++ [.p ')']) (ofDnf d)

/-- Operands with `&` in between. -/
inductive Operands : List Tok → List TsType → Prop
  | one {ts T} : Primary ts T → Operands ts [T]
  | and_ {ts c ts' T} : Operands ts c → Primary ts' T → Operands (ts ++ .p '&' :: ts') (c ++ [T])

/-- Alternatives with `|` in between; `&` binds more tightly. -/
inductive Alternatives : List Tok → Dnf → Prop
  | one {ts c} : Operands ts c → Alternatives ts [c]
  | or_ {ts d ts' c} : Alternatives ts d → Operands ts' c → Alternatives (ts ++ .p '|' :: ts') (d ++ [c])

/-- One or more types, with commas in between. -/
inductive Types : List Tok → List TsType → Prop
  | one {ts d} : Alternatives ts d → Types ts [ofDnf d]
  | more {ts Ts ts' d} : Types ts Ts → Alternatives ts' d → Types (ts ++ .p ',' :: ts') (Ts ++ [ofDnf d])

/-- One property, `k: T` or `k?: T`. -/
inductive Member : List Tok → Str × Bool × TsType → Prop
  | required {k ts d} : Alternatives ts d → Member (.ident k :: .p ':' :: ts) (k, false, ofDnf d)
  | optional {k ts d} : Alternatives ts d → Member (.ident k :: .p '?' :: .p ':' :: ts) (k, true, ofDnf d)

/-- One or more properties, with commas in between. -/
inductive Members : List Tok → List (Str × Bool × TsType) → Prop
  | one {ts p} : Member ts p → Members ts [p]
  | more {ts ps ts' p} : Members ts ps → Member ts' p → Members (ts ++ .p ',' :: ts') (ps ++ [p])

end

end Verif.Ts
