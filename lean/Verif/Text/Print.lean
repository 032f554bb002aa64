import Verif.Text.Utf16
import Verif.Rpc.Wire

/-!
# Writing JSON texts

`JSON.stringify` (ECMA-262, 25.5.2) as used by `src/rpc/clients/static/websocket_client.ts:104`, and
`serde_json::to_string` as used by `src/rpc/servers/axum.rs:59`, from documents to texts. Both write no
white space. How numbers that are not integers are written is a parameter (`fmt`).
-/

namespace Verif.Text
open Verif

/-- The hexadecimal digits, lower case. -/
def hexDigit (n : Nat) : Char := if n < 10 then Char.ofNat (48 + n) else Char.ofNat (87 + n)

/-- `\uXXXX`: ECMA-262 `UnicodeEscape`; serde_json writes the same. -/
def uEscape (u : Nat) : Str :=
  ['\\', 'u', hexDigit (u / 4096), hexDigit (u / 256 % 16), hexDigit (u / 16 % 16), hexDigit (u % 16)]

/-- How a code unit that is not part of a surrogate pair is written: ECMA-262 25.5.2.3 (Table 75).
Surrogates and control characters without an escape of their own are written as `\uXXXX`. -/
def quoteUnit (u : Nat) : Str :=
  if u = 8 then ['\\', 'b']
  else if u = 9 then ['\\', 't']
  else if u = 10 then ['\\', 'n']
  else if u = 12 then ['\\', 'f']
  else if u = 13 then ['\\', 'r']
  else if u = 34 then ['\\', '"']
  else if u = 92 then ['\\', '\\']
  else if u < 32 || isHigh u || isLow u then uEscape u
  else [Char.ofNat u]

/-- `QuoteJSONString` without the quotes: ECMA-262 25.5.2.3. -/
def quoteUnits : List Nat → Str
  | [] => []
  | [u] => quoteUnit u
  | u :: v :: r =>
    if isHigh u && isLow v then pairChar u v :: quoteUnits r
    else quoteUnit u ++ quoteUnits (v :: r)

/-- `JSON.stringify` of a string. -/
def jsQuote (us : List Nat) : Str := '"' :: quoteUnits us ++ ['"']

/-- How a character is written by serde_json (`format_escaped_str`). -/
def escChar (c : Char) : Str :=
  if c.toNat = 8 then ['\\', 'b']
  else if c.toNat = 9 then ['\\', 't']
  else if c.toNat = 10 then ['\\', 'n']
  else if c.toNat = 12 then ['\\', 'f']
  else if c.toNat = 13 then ['\\', 'r']
  else if c = '"' then ['\\', '"']
  else if c = '\\' then ['\\', '\\']
  else if c.toNat < 32 then ['\\', 'u', '0', '0', hexDigit (c.toNat / 16), hexDigit (c.toNat % 16)]
  else [c]

/-- `serde_json::to_string` of a string. -/
def serdeQuote (s : Str) : Str := '"' :: s.flatMap escChar ++ ['"']

/-- The decimal digits of a number. -/
def decimal (n : Nat) : Str :=
  if h : n < 10 then [Char.ofNat (48 + n)] else decimal (n / 10) ++ [Char.ofNat (48 + n % 10)]
termination_by n
decreasing_by omega

/-- Integers: as JavaScript writes them up to `2^53`, and serde_json always. -/
def printInt (i : Int) : Str := if i < 0 then '-' :: decimal (-i).toNat else decimal i.toNat

/-- A document as a text: `JSON.stringify` of what it describes, `serde_json::to_string` of it. -/
def print (fmt : Rat → Str) : Json → Str
  | .null => lit "null"
  | .bool true => lit "true"
  | .bool false => lit "false"
  | .num (.int i) => printInt i
  | .num (.flt q) => fmt q
  | .str s => serdeQuote s
  | .arr l => '[' :: printList l ++ [']']
  | .obj kvs => '{' :: printMembers kvs ++ ['}']
where
  printList : List Json → Str
    | [] => []
    | [j] => print fmt j
    | j :: j' :: r => print fmt j ++ ',' :: printList (j' :: r)
  printMembers : List (Str × Json) → Str
    | [] => []
    | [(k, j)] => serdeQuote k ++ ':' :: print fmt j
    | (k, j) :: p :: r => serdeQuote k ++ ':' :: print fmt j ++ ',' :: printMembers (p :: r)

end Verif.Text
