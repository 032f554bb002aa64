import Verif.Text.Utf16
import Verif.Rpc.Wire

/-!
# Reading JSON texts

The grammar of RFC 8259, as `serde_json::from_str` (`src/rpc/servers/axum.rs:45`) and `JSON.parse`
(`src/rpc/clients/static/websocket_client.ts:57`) read it.
-/

namespace Verif.Text
open Verif

/-- White space: RFC 8259, section 2. -/
def isWs (c : Char) : Bool := c = ' ' || c = '\t' || c = '\n' || c = '\r'

/-- White space is skipped. -/
def skip (s : Str) : Str := s.dropWhile isWs

/-- The value of a hexadecimal digit. -/
def hexVal (c : Char) : Option Nat :=
  let n := c.toNat
  if 48 ≤ n ∧ n ≤ 57 then some (n - 48)
  else if 97 ≤ n ∧ n ≤ 102 then some (n - 87)
  else if 65 ≤ n ∧ n ≤ 70 then some (n - 55)
  else none

/-- The value of four hexadecimal digits. -/
def hex4 (a b c d : Char) : Option Nat :=
  match hexVal a, hexVal b, hexVal c, hexVal d with
  | some a, some b, some c, some d => some (a * 4096 + b * 256 + c * 16 + d)
  | _, _, _, _ => none

/-- The escapes of two characters. -/
def shortEscape (c : Char) : Option Nat :=
  if c = '"' then some 34
  else if c = '\\' then some 92
  else if c = '/' then some 47
  else if c = 'b' then some 8
  else if c = 'f' then some 12
  else if c = 'n' then some 10
  else if c = 'r' then some 13
  else if c = 't' then some 9
  else none

/-- A string after its first quote: its code units and what follows. -/
def strBody : Str → Option (List Nat × Str)
  | [] => none
  | '"' :: r => some ([], r)
  | '\\' :: 'u' :: a :: b :: c :: d :: r => match hex4 a b c d with
    | some u => (strBody r).map (fun p => (u :: p.1, p.2))
    | none => none
  | '\\' :: c :: r => match shortEscape c with
    | some u => (strBody r).map (fun p => (u :: p.1, p.2))
    | none => none
  | c :: r => if c.toNat < 32 ∨ c = '\\' then none else (strBody r).map (fun p => (units16 c ++ p.1, p.2))

/-- A string of scalar values: a surrogate without its partner is an error of serde_json. -/
def readStr (s : Str) : Option (Str × Str) :=
  match strBody s with
  | some (us, r) => (decode16 us).map (fun x => (x, r))
  | none => none

/-- A number as it is written. -/
structure Numeral where
  neg : Bool
  int : Str
  frac : Option Str
  exp : Option (Bool × Str)

/-- Decimal digits. -/
def isDigit (c : Char) : Bool := 48 ≤ c.toNat && c.toNat ≤ 57

/-- The number some digits stand for. -/
def digitsVal (w : Str) : Nat := w.foldl (fun a c => 10 * a + (c.toNat - 48)) 0

/-- The digits at the beginning and what follows; at least one. -/
def digits1 (s : Str) : Option (Str × Str) :=
  if (s.takeWhile isDigit).isEmpty then none else some (s.takeWhile isDigit, s.dropWhile isDigit)

/-- The fraction, if there is one, and what follows: RFC 8259, section 6. -/
def readFrac : Str → Option (Option Str × Str)
  | '.' :: r => (digits1 r).map (fun p => (some p.1, p.2))
  | s => some (none, s)

/-- The exponent, if there is one, and what follows: RFC 8259, section 6. -/
def readExp : Str → Option (Option (Bool × Str) × Str)
  | c :: s => if c = 'e' ∨ c = 'E' then
      match s with
      | '-' :: r => (digits1 r).map (fun p => (some (true, p.1), p.2))
      | '+' :: r => (digits1 r).map (fun p => (some (false, p.1), p.2))
      | r => (digits1 r).map (fun p => (some (false, p.1), p.2))
    else some (none, c :: s)
  | [] => some (none, [])

/-- The digits before the fraction: no leading zero. -/
def readInt (s : Str) : Option (Str × Str) :=
  match digits1 s with
  | some (w, r) => if w.head? = some '0' ∧ 1 < w.length then none else some (w, r)
  | none => none

/-- The sign, if there is one, and what follows. -/
def readSign : Str → Bool × Str
  | '-' :: r => (true, r)
  | s => (false, s)

/-- A number at the beginning and what follows: RFC 8259, section 6. -/
def readNumeral (s : Str) : Option (Numeral × Str) :=
  match readInt (readSign s).2 with
  | none => none
  | some (w, r) => match readFrac r with
    | none => none
    | some (f, r) => match readExp r with
      | none => none
      | some (e, r) => some (⟨(readSign s).1, w, f, e⟩, r)

/-- The number written. -/
def Numeral.value (n : Numeral) : Rat :=
  let m : Rat := (digitsVal n.int : Rat) + (digitsVal (n.frac.getD []) : Rat) / (10 : Rat) ^ (n.frac.getD []).length
  let x : Rat := match n.exp with
    | none => 1
    | some (true, w) => 1 / (10 : Rat) ^ digitsVal w
    | some (false, w) => (10 : Rat) ^ digitsVal w
  (if n.neg then -m else m) * x

/-- Written without fraction and exponent. -/
def Numeral.whole (n : Numeral) : Bool := n.frac.isNone && n.exp.isNone

/-- The integer written before fraction and exponent. -/
def Numeral.intVal (n : Numeral) : Int := if n.neg then -(digitsVal n.int : Int) else (digitsVal n.int : Int)

/-- How to read: how many nested arrays and objects are too many, and what a number is, if it is one. -/
structure Reader where
  limit : Nat
  num : Numeral → Option JNum

/-- The elements of an array up to its end. At most `n` elements. -/
def elements (f : Str → Option (Json × Str)) : Nat → Str → Option (List Json × Str)
  | 0, _ => none
  | n + 1, s => match f s with
    | none => none
    | some (j, r) => match skip r with
      | ']' :: r => some ([j], r)
      | ',' :: r => (elements f n r).map (fun p => (j :: p.1, p.2))
      | _ => none

/-- The members of an object up to its end. At most `n` members. -/
def members (f : Str → Option (Json × Str)) : Nat → Str → Option (List (Str × Json) × Str)
  | 0, _ => none
  | n + 1, s => match skip s with
    | '"' :: r => match readStr r with
      | none => none
      | some (k, r) => match skip r with
        | ':' :: r => match f r with
          | none => none
          | some (j, r) => match skip r with
            | '}' :: r => some ([(k, j)], r)
            | ',' :: r => (members f n r).map (fun p => ((k, j) :: p.1, p.2))
            | _ => none
        | _ => none
    | _ => none

/-- A value at the beginning and what follows. The first argument counts down the nested arrays and
objects; it is an error when it reaches zero (`remaining_depth` of serde_json). -/
def value (R : Reader) : Nat → Str → Option (Json × Str)
  | 0, _ => none
  | d + 1, s => match skip s with
    | 'n' :: 'u' :: 'l' :: 'l' :: r => some (.null, r)
    | 't' :: 'r' :: 'u' :: 'e' :: r => some (.bool true, r)
    | 'f' :: 'a' :: 'l' :: 's' :: 'e' :: r => some (.bool false, r)
    | '"' :: r => (readStr r).map (fun p => (.str p.1, p.2))
    | '[' :: r => if d = 0 then none else match skip r with
      | ']' :: r => some (.arr [], r)
      | r => (elements (value R d) r.length r).map (fun p => (.arr p.1, p.2))
    | '{' :: r => if d = 0 then none else match skip r with
      | '}' :: r => some (.obj [], r)
      | r => (members (value R d) r.length r).map (fun p => (.obj p.1, p.2))
    | r => match readNumeral r with
      | none => none
      | some (n, r) => (R.num n).map (fun x => (.num x, r))

/-- The document a text consists of. -/
def Reader.read (R : Reader) (s : Str) : Option Json :=
  match value R R.limit s with
  | some (j, r) => if (skip r).isEmpty then some j else none
  | none => none

/-- Numbers of serde_json: an integer without fraction and exponent in the range of `i64` or `u64`, and not
`-0`, is an integer; everything else is converted to a double by `round`, which fails if there is none (an
error, "number out of range"). -/
def serdeNum (round : Rat → Option Rat) (n : Numeral) : Option JNum :=
  if n.whole && !(n.neg && digitsVal n.int == 0) && (-(2 ^ 63 : Int) ≤ n.intVal && n.intVal < 2 ^ 64)
  then some (.int n.intVal) else (round n.value).map .flt

/-- `serde_json::from_str` in `src/rpc/servers/axum.rs:45`. serde_json gives up at the 128th nested array or
object. Simplified: values that serde skips because no field wants them (in `cancelStream`) are read
without this limit. -/
def serdeReader (round : Rat → Option Rat) : Reader := ⟨128, serdeNum round⟩

/-- `JSON.parse` in `src/rpc/clients/static/websocket_client.ts:57` as far as the document goes; which number a
whole numeral is (rounding to doubles) is the business of `Js.fromJson`. There is no limit: that of the
length of the text is never reached. Texts with surrogates without partner and numerals beyond the doubles are left out: `JSON.parse` reads them,
but as values (`Infinity`) that are in no document. -/
def jsReader (round : Rat → Option Rat) (s : Str) : Reader :=
  ⟨s.length + 1, fun n =>
    if n.whole && !(n.neg && digitsVal n.int == 0) then some (.int n.intVal) else (round n.value).map .flt⟩

end Verif.Text
