import Verif.Basic.Str

/-!
# Documentation texts

Models `derive/src/docs.rs` and `escape` in `core/src/docs.rs`.
-/

namespace Verif.Derive
open Verif

/-- `char::is_whitespace` (the Unicode property White_Space), used by `str::trim`.
`derive/src/docs.rs:18`. -/
def isWs (c : Char) : Bool :=
  let n := c.toNat
  (9 ≤ n && n ≤ 13) || n == 0x20 || n == 0x85 || n == 0xA0 || n == 0x1680 ||
  (0x2000 ≤ n && n ≤ 0x200A) || n == 0x2028 || n == 0x2029 || n == 0x202F || n == 0x205F || n == 0x3000

/-- `str::trim`. `derive/src/docs.rs:18`. -/
def trim (s : Str) : Str := ((s.dropWhile isWs).reverse.dropWhile isWs).reverse

/-- The pieces of `s` between line feeds. Part of `str::lines` at `derive/src/docs.rs:44`. -/
def splitNl : Str → List Str
  | [] => [[]]
  | c :: s =>
    if c = '\n' then [] :: splitNl s
    else match splitNl s with
      | [] => [[c]]
      | l :: ls => (c :: l) :: ls

/-- A carriage return before the line feed belongs to the line ending. Part of `str::lines` at
`derive/src/docs.rs:44`. -/
def stripCr (l : Str) : Str :=
  match l.reverse with
  | '\r' :: r => r.reverse
  | _ => l

/-- `str::lines`: the pieces between line feeds, a final empty piece dropped, a carriage return
before a line feed dropped. `derive/src/docs.rs:44`. -/
def lines (s : Str) : List Str :=
  let ls := splitNl s
  ls.dropLast.map stripCr ++ (match ls.getLast? with
    | some l => if l.isEmpty then [] else [l]
    | none => [])

/-- An attribute of the item: a doc string, another attribute (`doc(hidden)`, `derive(..)`), or one
that `parse_meta` rejects (for example `doc = include_str!(..)`). `derive/src/docs.rs:14-26`. -/
inductive Attr where
  | doc (s : Str)
  | other
  | unparsable
  deriving DecidableEq

/-- The loop in `RustDocs::from_attrs`: `derive/src/docs.rs:12-26`; `none` is the syntax error. -/
def fromAttrsLoop : List Attr → Str → Option Str
  | [], full => some full
  | .doc d :: rest, full =>
    fromAttrsLoop rest ((if full.isEmpty then full else full ++ lit "\n") ++ trim d)
  | .other :: rest, full => fromAttrsLoop rest full
  | .unparsable :: _, _ => none

/-- `RustDocs::from_attrs`: `derive/src/docs.rs:11-34`. The outer `Option` is the `Result`. -/
def fromAttrs (attrs : List Attr) : Option (Option Str) :=
  (fromAttrsLoop attrs []).map (fun full => if full.isEmpty then none else some full)

/-- `ToTokens for RustDocs`: `derive/src/docs.rs:37-52`: the string literal that ends up in
`ZodType::docs`. -/
def renderDocs : Option Str → Str
  | some docs => lit "/**\n" ++ ((lines docs).map (fun l => lit "* " ++ l ++ lit "\n")).flatten ++ lit "*/\n"
  | none => []

/-- The text returned by `docs()` of an item with these attributes (`derive/src/lib.rs:77-82`). -/
def docsText (attrs : List Attr) : Option Str := (fromAttrs attrs).map renderDocs

/-- `str::replace` of a character by a text. `core/src/docs.rs:123-129`. -/
def replaceChar (c : Char) (by_ : Str) (s : Str) : Str :=
  (s.map (fun x => if x = c then by_ else [x])).flatten

/-- `escape`: `core/src/docs.rs:123-129`. -/
def escape (s : Str) : Str :=
  replaceChar '|' (lit "&#124;") (replaceChar '>' (lit "&gt;") (replaceChar '<' (lit "&lt;") s))

end Verif.Derive
