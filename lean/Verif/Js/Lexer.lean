import Verif.Basic.Str

/-!
# Tokens of JavaScript and TypeScript

The lexical grammar of ECMA-262 and TypeScript, restricted to what generated code contains: ASCII
identifiers, decimal integers, double quoted strings without escapes, punctuation, white space. Comments,
template literals and regular expressions are not tokens here: text containing them does not lex.
-/

namespace Verif.Js
open Verif

/-- Tokens. -/
inductive Tok where
  | ident (w : Str)
  | num (n : Nat)
  | str (s : Str)
  | p (c : Char)
  | arrow
  deriving DecidableEq, Repr

/-- Characters of identifiers and numbers: ASCII letters, digits, `_` and `$`. -/
def isWordChar (c : Char) : Bool :=
  ('a'.val ≤ c.val && c.val ≤ 'z'.val) || ('A'.val ≤ c.val && c.val ≤ 'Z'.val) ||
    ('0'.val ≤ c.val && c.val ≤ '9'.val) || c = '_' || c = '$'

/-- Decimal digits. -/
def isDigit (c : Char) : Bool := '0'.val ≤ c.val && c.val ≤ '9'.val

/-- White space. -/
def isSpace (c : Char) : Bool := c = ' ' || c = '\n' || c = '\t' || c = '\r'

/-- Punctuators of one character. -/
def isPunct (c : Char) : Bool := ['.', ',', ':', '(', ')', '[', ']', '{', '}', '-', '?', '|', '&', '<', '>', ';', '!', '+', '*'].contains c

/-- What the lexer is in the middle of. -/
inductive Mode where
  | start
  /-- inside an identifier or number; the characters are reversed -/
  | word (w : Str)
  /-- inside a string literal; the characters are reversed -/
  | str (w : Str)
  | eq
  | bad
  deriving DecidableEq, Repr

/-- The tokens so far, last first, and the token being read. -/
structure LState where
  acc : List Tok
  mode : Mode
  deriving DecidableEq, Repr

/-- The number some digits stand for. -/
def digitsVal (w : Str) : Nat := w.foldl (fun a c => 10 * a + (c.toNat - 48)) 0

/-- The token a maximal run of word characters is; `none` for an ill-formed number. -/
def wordTok (w : Str) : Option Tok :=
  match w with
  | [] => none
  | c :: r =>
    if isDigit c then
      if r.all isDigit && (c != '0' || r.isEmpty) then some (.num (digitsVal w)) else none
    else some (.ident w)

/-- A character between tokens. -/
def startStep (acc : List Tok) (c : Char) : LState :=
  if isWordChar c then ⟨acc, .word [c]⟩
  else if c = '"' then ⟨acc, .str []⟩
  else if c = '=' then ⟨acc, .eq⟩
  else if isSpace c then ⟨acc, .start⟩
  else if isPunct c then ⟨.p c :: acc, .start⟩
  else ⟨acc, .bad⟩

/-- One character. -/
def lexStep (s : LState) (c : Char) : LState :=
  match s.mode with
  | .bad => s
  | .start => startStep s.acc c
  | .str w =>
      if c = '"' then ⟨.str w.reverse :: s.acc, .start⟩
      else if c = '\\' || c = '\n' || c = '\r' then ⟨s.acc, .bad⟩
      else ⟨s.acc, .str (c :: w)⟩
  | .eq => if c = '>' then ⟨.arrow :: s.acc, .start⟩ else startStep (.p '=' :: s.acc) c
  | .word w =>
      if isWordChar c then ⟨s.acc, .word (c :: w)⟩
      else match wordTok w.reverse with
        | some (.num n) => if c = '.' then ⟨s.acc, .bad⟩ else startStep (.num n :: s.acc) c
        | some t => startStep (t :: s.acc) c
        | none => ⟨s.acc, .bad⟩

/-- Many characters. -/
def lexRun (s : LState) (cs : Str) : LState := cs.foldl lexStep s

/-- The end of the text. -/
def lexEnd (s : LState) : Option (List Tok) :=
  match s.mode with
  | .start => some s.acc.reverse
  | .eq => some (.p '=' :: s.acc).reverse
  | .word w => (wordTok w.reverse).map (fun t => (t :: s.acc).reverse)
  | _ => none

/-- The tokens of a text; `none` if it does not lex. -/
def lex (cs : Str) : Option (List Tok) := lexEnd (lexRun ⟨[], .start⟩ cs)

/-! ## Composition -/

theorem lexRun_append (s : LState) (a b : Str) : lexRun s (a ++ b) = lexRun (lexRun s a) b := by
  simp [lexRun, List.foldl_append]

@[simp] theorem lexRun_nil (s : LState) : lexRun s [] = s := rfl
theorem lexRun_cons (s : LState) (c : Char) (r : Str) : lexRun s (c :: r) = lexRun (lexStep s c) r := rfl

/-- The text is a complete sequence of tokens, whatever comes before and after. -/
def Lexes (cs : Str) (ts : List Tok) : Prop :=
  ∀ acc, lexRun ⟨acc, .start⟩ cs = ⟨ts.reverse ++ acc, .start⟩

/-- A text that may end in an identifier or number: it is complete when followed by something that does not
continue a word (nor, after a number, is a dot). -/
def LexesW (cs : Str) (ts : List Tok) : Prop :=
  ∀ acc, ∃ a m, lexRun ⟨acc, .start⟩ cs = ⟨a, m⟩ ∧
    ((m = .start ∧ a = ts.reverse ++ acc) ∨
      (∃ w t, m = .word w ∧ w ≠ [] ∧ wordTok w.reverse = some t ∧ (∀ n, t ≠ .num n) ∧
        t :: a = ts.reverse ++ acc))

theorem Lexes.nil : Lexes [] [] := fun _ => rfl

theorem Lexes.append {a b : Str} {ta tb : List Tok} (ha : Lexes a ta) (hb : Lexes b tb) :
    Lexes (a ++ b) (ta ++ tb) := by
  intro acc
  rw [lexRun_append, ha, hb]
  simp [List.reverse_append, List.append_assoc]

theorem Lexes.weaken {a : Str} {ta : List Tok} (ha : Lexes a ta) : LexesW a ta :=
  fun acc => ⟨_, _, ha acc, Or.inl ⟨rfl, rfl⟩⟩

theorem Lexes.appendW {a b : Str} {ta tb : List Tok} (ha : Lexes a ta) (hb : LexesW b tb) :
    LexesW (a ++ b) (ta ++ tb) := by
  intro acc
  obtain ⟨x, m, h, h'⟩ := hb (ta.reverse ++ acc)
  refine ⟨x, m, ?_, ?_⟩
  · rw [lexRun_append, ha, h]
  · simpa [List.reverse_append, List.append_assoc] using h'

theorem startStep_word {acc : List Tok} {w : Str} {c : Char} {t : Tok} (hc : isWordChar c = false)
    (ht : wordTok w.reverse = some t) (hn : ∀ n, t ≠ .num n) :
    lexStep ⟨acc, .word w⟩ c = lexStep ⟨t :: acc, .start⟩ c := by
  unfold lexStep
  simp only [hc, ht]
  cases t with
  | num n => exact absurd rfl (hn n)
  | _ => simp

/-- A text ending in a word is completed by a text starting with a non-word character. -/
theorem LexesW.append {a b : Str} {ta tb : List Tok} (ha : LexesW a ta) (hb : Lexes b tb)
    (hne : ∃ c r, b = c :: r ∧ isWordChar c = false) : Lexes (a ++ b) (ta ++ tb) := by
  intro acc
  obtain ⟨x, m, h, h'⟩ := ha acc
  rw [lexRun_append, h]
  obtain ⟨c, r, rfl, hc⟩ := hne
  rcases h' with ⟨rfl, rfl⟩ | ⟨w, t, rfl, _, ht, hn, he⟩
  · rw [hb]; simp [List.reverse_append, List.append_assoc]
  · rw [lexRun_cons, startStep_word hc ht hn, he, ← lexRun_cons, hb]
    simp [List.reverse_append, List.append_assoc]

theorem LexesW.appendW {a b : Str} {ta tb : List Tok} (ha : LexesW a ta) (hb : LexesW b tb)
    (hne : ∃ c r, b = c :: r ∧ isWordChar c = false) : LexesW (a ++ b) (ta ++ tb) := by
  intro acc
  obtain ⟨x, m, h, h'⟩ := ha acc
  obtain ⟨y, m2, g, g'⟩ := hb (ta.reverse ++ acc)
  refine ⟨y, m2, ?_, by simpa [List.reverse_append, List.append_assoc] using g'⟩
  rw [lexRun_append, h]
  obtain ⟨c, r, rfl, hc⟩ := hne
  rcases h' with ⟨rfl, rfl⟩ | ⟨w, t, rfl, _, ht, hn, he⟩
  · exact g
  · rw [lexRun_cons, startStep_word hc ht hn, he, ← lexRun_cons]; exact g

theorem LexesW.lex {a : Str} {ta : List Tok} (ha : LexesW a ta) : lex a = some ta := by
  obtain ⟨x, m, h, h'⟩ := ha []
  unfold Js.lex
  rw [h]
  rcases h' with ⟨rfl, rfl⟩ | ⟨w, t, rfl, _, ht, _, he⟩
  · simp [lexEnd]
  · simp only [lexEnd, ht, Option.map_some, he]; simp

theorem Lexes.lex {a : Str} {ta : List Tok} (ha : Lexes a ta) : lex a = some ta := ha.weaken.lex

/-- What was read before does not matter. -/
theorem lexStep_acc (a acc : List Tok) (m : Mode) (c : Char) :
    lexStep ⟨a ++ acc, m⟩ c = ⟨(lexStep ⟨a, m⟩ c).acc ++ acc, (lexStep ⟨a, m⟩ c).mode⟩ := by
  have hs : ∀ a : List Tok, startStep (a ++ acc) c = ⟨(startStep a c).acc ++ acc, (startStep a c).mode⟩ := by
    intro a
    unfold startStep
    repeat' split
    all_goals rfl
  cases m with
  | bad => rfl
  | start => exact hs a
  | str w =>
    simp only [lexStep]
    repeat' split
    all_goals rfl
  | eq =>
    simp only [lexStep]
    split
    · rfl
    · exact hs (.p '=' :: a)
  | word w =>
    simp only [lexStep]
    split
    · rfl
    · cases wordTok w.reverse with
      | none => rfl
      | some t =>
        cases t with
        | num n =>
          simp only
          split
          · rfl
          · exact hs (.num n :: a)
        | ident w => exact hs (.ident w :: a)
        | str w => exact hs (.str w :: a)
        | p w => exact hs (.p w :: a)
        | arrow => exact hs (.arrow :: a)

theorem lexRun_acc (a acc : List Tok) (m : Mode) (s : Str) :
    lexRun ⟨a ++ acc, m⟩ s = ⟨(lexRun ⟨a, m⟩ s).acc ++ acc, (lexRun ⟨a, m⟩ s).mode⟩ := by
  induction s generalizing a m with
  | nil => rfl
  | cons c r ih =>
    rw [lexRun_cons, lexStep_acc, ih]
    rfl

/-- The tokens of a text that ends between tokens. -/
def toks (s : Str) : List Tok := (lexRun ⟨[], .start⟩ s).acc.reverse

theorem lexes_toks {s : Str} (h : (lexRun ⟨[], .start⟩ s).mode = .start) : Lexes s (toks s) := by
  intro acc
  have := lexRun_acc [] acc .start s
  rw [List.nil_append] at this
  rw [this, h, toks, List.reverse_reverse]

/-! ## Names -/

/-- An ASCII identifier name. -/
def isIdent (w : Str) : Bool :=
  match w with
  | [] => false
  | c :: r => isWordChar c && !isDigit c && r.all isWordChar

theorem lexRun_word {acc : List Tok} {w r : Str} (h : r.all isWordChar = true) :
    lexRun ⟨acc, .word w⟩ r = ⟨acc, .word (r.reverse ++ w)⟩ := by
  induction r generalizing w with
  | nil => rfl
  | cons c r ih =>
    simp only [List.all_cons, Bool.and_eq_true] at h
    rw [lexRun_cons]
    have : lexStep ⟨acc, .word w⟩ c = ⟨acc, .word (c :: w)⟩ := by simp [lexStep, h.1]
    rw [this, ih h.2]
    simp

theorem ident_lexesW {w : Str} (h : isIdent w = true) : LexesW w [.ident w] := by
  intro acc
  cases w with
  | nil => simp [isIdent] at h
  | cons c r =>
    simp only [isIdent, Bool.and_eq_true] at h
    refine ⟨acc, .word (r.reverse ++ [c]), ?_, Or.inr ⟨_, .ident (c :: r), rfl, by simp, ?_, ?_, rfl⟩⟩
    · rw [lexRun_cons]
      have : lexStep ⟨acc, .start⟩ c = ⟨acc, .word [c]⟩ := by simp [lexStep, startStep, h.1.1]
      rw [this, lexRun_word h.2]
    · have hd : isDigit c = false := by simpa using h.1.2
      simp [wordTok, hd]
    · intro n; simp

/-- An identifier followed by a complete text. -/
theorem ident_then {w b : Str} {tb : List Tok} (h : isIdent w = true) (hb : Lexes b tb)
    (hne : ∃ c r, b = c :: r ∧ isWordChar c = false) : Lexes (w ++ b) (.ident w :: tb) :=
  (ident_lexesW h).append hb hne

/-- Text that may stand between double quotes. -/
def isQuotable (w : Str) : Bool := w.all (fun c => !(c = '"' || c = '\\' || c = '\n' || c = '\r'))

theorem lexRun_str {acc : List Tok} {w r : Str} (h : isQuotable r = true) :
    lexRun ⟨acc, .str w⟩ r = ⟨acc, .str (r.reverse ++ w)⟩ := by
  induction r generalizing w with
  | nil => rfl
  | cons c r ih =>
    simp only [isQuotable, List.all_cons, Bool.and_eq_true] at h
    rw [lexRun_cons]
    have hc := h.1
    have : lexStep ⟨acc, .str w⟩ c = ⟨acc, .str (c :: w)⟩ := by
      simp at hc
      simp [lexStep, hc]
    rw [this, ih h.2]
    simp

theorem quoted_lexes {w : Str} (h : isQuotable w = true) : Lexes (lit "\"" ++ w ++ lit "\"") [.str w] := by
  intro acc
  rw [lexRun_append, lexRun_append]
  have : lexRun ⟨acc, .start⟩ (lit "\"") = ⟨acc, .str []⟩ := rfl
  rw [this, lexRun_str h, show lit "\"" = ['"'] from rfl]
  simp [lexRun, lexStep]

theorem isIdent_quotable {w : Str} (h : isIdent w = true) : isQuotable w = true := by
  have aux : ∀ c : Char, isWordChar c = true → (!(c = '"' || c = '\\' || c = '\n' || c = '\r')) = true := by
    intro c hc
    cases hb : (c = '"' || c = '\\' || c = '\n' || c = '\r' : Bool) with
    | false => rfl
    | true =>
      simp at hb
      rcases hb with ((rfl | rfl) | rfl) | rfl <;> exact absurd hc (by decide)
  cases w with
  | nil => rfl
  | cons c r =>
    simp only [isIdent, Bool.and_eq_true] at h
    simp only [isQuotable, List.all_cons, Bool.and_eq_true]
    refine ⟨aux c h.1.1, ?_⟩
    rw [List.all_eq_true]
    intro x hx
    exact aux x (List.all_eq_true.1 h.2 x hx)

example : lex (lit "z.tuple([z.lazy(() => Ns.Name)]).optional()") =
    some [.ident (lit "z"), .p '.', .ident (lit "tuple"), .p '(', .p '[', .ident (lit "z"), .p '.',
      .ident (lit "lazy"), .p '(', .p '(', .p ')', .arrow, .ident (lit "Ns"), .p '.', .ident (lit "Name"),
      .p ')', .p ']', .p ')', .p '.', .ident (lit "optional"), .p '(', .p ')'] := by decide +kernel

end Verif.Js
