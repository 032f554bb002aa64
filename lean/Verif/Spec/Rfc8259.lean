import Verif.Rpc.Wire

/-!
# What a JSON text is, and which document it denotes

RFC 8259, as relations between texts and what they denote, without any algorithm. The section numbers are
those of the RFC.
-/

namespace Verif.JsonSpec
open Verif

/-- White space (section 2): any number of spaces, tabs, line feeds and carriage returns. -/
def Ws (w : Str) : Prop := ∀ c ∈ w, c ∈ [' ', '\t', '\n', '\r']

/-! ## Strings (section 7) -/

/-- The digit `c` has the value `n` in base 16. -/
def Hex (c : Char) (n : Nat) : Prop :=
  (c, n) ∈ [('0', 0), ('1', 1), ('2', 2), ('3', 3), ('4', 4), ('5', 5), ('6', 6), ('7', 7), ('8', 8), ('9', 9),
    ('a', 10), ('b', 11), ('c', 12), ('d', 13), ('e', 14), ('f', 15),
    ('A', 10), ('B', 11), ('C', 12), ('D', 13), ('E', 14), ('F', 15)]

/-- A backslash and `c` stand for the character `d`. -/
def Escape (c d : Char) : Prop :=
  (c, d) ∈ [('"', '"'), ('\\', '\\'), ('/', '/'), ('b', '\x08'), ('f', '\x0c'), ('n', '\n'), ('r', '\r'), ('t', '\t')]

/-- The UTF-16 code units of a character (RFC 2781, section 2.1). -/
inductive Utf16 : Char → List Nat → Prop
  | one (c : Char) : c.toNat < 0x10000 → Utf16 c [c.toNat]
  | two (c : Char) (hi lo : Nat) : c.toNat = 0x10000 + hi * 0x400 + lo → lo < 0x400 →
      Utf16 c [0xD800 + hi, 0xDC00 + lo]

/-- The UTF-16 code units of a text. -/
inductive Units : Str → List Nat → Prop
  | nil : Units [] []
  | cons (c : Char) (us : List Nat) (s : Str) (vs : List Nat) : Utf16 c us → Units s vs → Units (c :: s) (us ++ vs)

/-- What stands between the quotes, and the code units it denotes. -/
inductive Chars : Str → List Nat → Prop
  | nil : Chars [] []
  | unescaped (c : Char) (us : List Nat) (t : Str) (vs : List Nat) : 0x20 ≤ c.toNat → c ≠ '"' → c ≠ '\\' →
      Utf16 c us → Chars t vs → Chars (c :: t) (us ++ vs)
  | escaped (c d : Char) (t : Str) (vs : List Nat) : Escape c d → Chars t vs → Chars ('\\' :: c :: t) (d.toNat :: vs)
  | hex (a b c d : Char) (w x y z : Nat) (t : Str) (vs : List Nat) : Hex a w → Hex b x → Hex c y → Hex d z → Chars t vs →
      Chars ('\\' :: 'u' :: a :: b :: c :: d :: t) ((w * 0x1000 + x * 0x100 + y * 0x10 + z) :: vs)

/-- `t` is a string that denotes the text `s`. -/
def IsString (t s : Str) : Prop := ∃ body us, t = ['"'] ++ body ++ ['"'] ∧ Chars body us ∧ Units s us

/-! ## Numbers (section 6) -/

/-- One or more decimal digits, and their value. -/
inductive Digits : Str → Nat → Prop
  | one (n : Nat) : n < 10 → Digits [Char.ofNat (48 + n)] n
  | more (w : Str) (m n : Nat) : Digits w m → n < 10 → Digits (w ++ [Char.ofNat (48 + n)]) (10 * m + n)

/-- The integer part has no leading zeros. -/
def IntPart (w : Str) (n : Nat) : Prop := Digits w n ∧ (w = ['0'] ∨ w.head? ≠ some '0')

/-- Fraction or nothing. -/
inductive FracPart : Str → Rat → Prop
  | none : FracPart [] 0
  | some (w : Str) (n : Nat) : Digits w n → FracPart ('.' :: w) ((n : Rat) / 10 ^ w.length)

/-- Exponent or nothing, and the factor it denotes. -/
inductive ExpPart : Str → Rat → Prop
  | none : ExpPart [] 1
  | plain (e : Char) (w : Str) (n : Nat) : e ∈ ['e', 'E'] → Digits w n → ExpPart (e :: w) (10 ^ n)
  | plus (e : Char) (w : Str) (n : Nat) : e ∈ ['e', 'E'] → Digits w n → ExpPart (e :: '+' :: w) (10 ^ n)
  | minus (e : Char) (w : Str) (n : Nat) : e ∈ ['e', 'E'] → Digits w n → ExpPart (e :: '-' :: w) (1 / 10 ^ n)

/-- Minus sign or nothing. -/
inductive SignPart : Str → Int → Prop
  | none : SignPart [] 1
  | minus : SignPart ['-'] (-1)

/-- `t` is a number that denotes `q`. If it has neither fraction nor exponent and is not `-0` then `i` is
the integer it denotes; otherwise `i` is `none`. -/
def IsNumber (t : Str) (q : Rat) (i : Option Int) : Prop :=
  ∃ sign s int n frac f exp x, t = sign ++ int ++ frac ++ exp ∧ SignPart sign s ∧ IntPart int n ∧ FracPart frac f ∧
    ExpPart exp x ∧ q = s * (n + f) * x ∧
    ((frac = [] ∧ exp = [] ∧ t ≠ ['-', '0'] ∧ i = some (s * n)) ∨ ((frac ≠ [] ∨ exp ≠ [] ∨ t = ['-', '0']) ∧ i = none))

/-! ## Values (sections 3, 4, 5) -/

mutual

/-- `t` is a value without white space around it, which denotes `j`; at most `d` arrays and objects are nested in each
other. What a number denotes is up to `num`. Of members with the same name none is left out. -/
inductive Value (num : Str → JNum → Prop) : Nat → Str → Json → Prop
  | null (d : Nat) : Value num d (lit "null") .null
  | true (d : Nat) : Value num d (lit "true") (.bool .true)
  | false (d : Nat) : Value num d (lit "false") (.bool .false)
  | num (d : Nat) (t : Str) (x : JNum) : num t x → Value num d t (.num x)
  | str (d : Nat) (t s : Str) : IsString t s → Value num d t (.str s)
  | emptyArr (d : Nat) (w : Str) : Ws w → Value num (d + 1) (['['] ++ w ++ [']']) (.arr [])
  | arr (d : Nat) (t : Str) (l : List Json) : Elements num d t l → Value num (d + 1) (['['] ++ t ++ [']']) (.arr l)
  | emptyObj (d : Nat) (w : Str) : Ws w → Value num (d + 1) (['{'] ++ w ++ ['}']) (.obj [])
  | obj (d : Nat) (t : Str) (l : List (Str × Json)) : Members num d t l →
      Value num (d + 1) (['{'] ++ t ++ ['}']) (.obj l)

/-- Values with commas between them. -/
inductive Elements (num : Str → JNum → Prop) : Nat → Str → List Json → Prop
  | last (d : Nat) (w t w' : Str) (j : Json) : Ws w → Value num d t j → Ws w' → Elements num d (w ++ t ++ w') [j]
  | more (d : Nat) (w t w' r : Str) (j : Json) (l : List Json) : Ws w → Value num d t j → Ws w' →
      Elements num d r l → Elements num d (w ++ t ++ w' ++ [','] ++ r) (j :: l)

/-- Names and values with commas between them. -/
inductive Members (num : Str → JNum → Prop) : Nat → Str → List (Str × Json) → Prop
  | last (d : Nat) (w n w' v t w'' k : Str) (j : Json) : Ws w → IsString n k → Ws w' → Ws v → Value num d t j → Ws w'' →
      Members num d (w ++ n ++ w' ++ [':'] ++ v ++ t ++ w'') [(k, j)]
  | more (d : Nat) (w n w' v t w'' r k : Str) (j : Json) (l : List (Str × Json)) : Ws w → IsString n k → Ws w' → Ws v →
      Value num d t j → Ws w'' → Members num d r l →
      Members num d (w ++ n ++ w' ++ [':'] ++ v ++ t ++ w'' ++ [','] ++ r) ((k, j) :: l)

end

/-- `t` is a JSON text that denotes `j`. -/
def IsText (num : Str → JNum → Prop) (d : Nat) (t : Str) (j : Json) : Prop :=
  ∃ w v w', t = w ++ v ++ w' ∧ Ws w ∧ Value num d v j ∧ Ws w'

/-! ## The numbers of the two ends -/

/-- The number that serde_json makes of a text: the integer, if one is written and it is an `i64` or a `u64`; otherwise
the double nearest to what is written, if there is one. -/
def ServerNumber (round : Rat → Option Rat) (t : Str) : JNum → Prop
  | .int i => ∃ q, IsNumber t q (some i) ∧ -(2 ^ 63) ≤ i ∧ i < 2 ^ 64
  | .flt r => ∃ q i, IsNumber t q i ∧ (∀ n, i = some n → ¬ (-(2 ^ 63) ≤ n ∧ n < 2 ^ 64)) ∧ round q = some r

/-- The number in the document that `JSON.parse` reads: the integer, if one is written; otherwise the double nearest to
what is written. (Integers are rounded later, by `Js.fromJson`.) -/
def ClientNumber (round : Rat → Option Rat) (t : Str) : JNum → Prop
  | .int i => ∃ q, IsNumber t q (some i)
  | .flt r => ∃ q, IsNumber t q none ∧ round q = some r

end Verif.JsonSpec
