import Verif.Derive.Docs

/-!
# What documentation texts should look like
-/

namespace Verif.DocsSpec
open Verif Verif.Derive

/-- The doc strings among the attributes. -/
def docStrings (attrs : List Attr) : List Str :=
  attrs.filterMap (fun a => match a with | .doc s => some s | _ => none)

/-- The characters with the Unicode property White_Space (PropList.txt). -/
def whiteSpace : List Nat :=
  [0x9, 0xA, 0xB, 0xC, 0xD, 0x20, 0x85, 0xA0, 0x1680, 0x2000, 0x2001, 0x2002, 0x2003, 0x2004, 0x2005, 0x2006, 0x2007, 0x2008,
   0x2009, 0x200A, 0x2028, 0x2029, 0x202F, 0x205F, 0x3000]

/-- A white space character. -/
def WhiteSpace (c : Char) : Prop := c.toNat ∈ whiteSpace

/-- `t` is `s` without surrounding white space. -/
def Trimmed (s t : Str) : Prop :=
  (∃ a b : Str, s = a ++ t ++ b ∧ (∀ c ∈ a, WhiteSpace c) ∧ (∀ c ∈ b, WhiteSpace c)) ∧
  (∀ c r, t = c :: r → ¬ WhiteSpace c) ∧ (∀ c r, t = r ++ [c] → ¬ WhiteSpace c)

/-- The second list is the first one, each text trimmed. -/
inductive AllTrimmed : List Str → List Str → Prop where
  | nil : AllTrimmed [] []
  | cons {s t : Str} {ss ts : List Str} : Trimmed s t → AllTrimmed ss ts → AllTrimmed (s :: ss) (t :: ts)

/-- A block comment with these lines. -/
def comment (ls : List Str) : Str :=
  lit "/**\n" ++ (ls.map (fun l => lit "* " ++ l ++ lit "\n")).flatten ++ lit "*/\n"

/-- The text starts a block comment, and the first end-of-comment mark is the one just before the final
line feed. -/
def OneComment (text : Str) : Prop :=
  ∃ body : Str, text = lit "/*" ++ body ++ lit "*/" ++ lit "\n" ∧ ¬ lit "*/" <:+: body ++ lit "*"

/-- The characters that are special in a markdown table cell. -/
def special (c : Char) : Prop := c = '<' ∨ c = '>' ∨ c = '|'

/-- Decoding the three entities, from left to right. -/
def decode : Str → Str
  | '&' :: 'l' :: 't' :: ';' :: s => '<' :: decode s
  | '&' :: 'g' :: 't' :: ';' :: s => '>' :: decode s
  | '&' :: '#' :: '1' :: '2' :: '4' :: ';' :: s => '|' :: decode s
  | c :: s => c :: decode s
  | [] => []

/-- The text contains one of the three entities. -/
def HasEntity (s : Str) : Prop := lit "&lt;" <:+: s ∨ lit "&gt;" <:+: s ∨ lit "&#124;" <:+: s

end Verif.DocsSpec
