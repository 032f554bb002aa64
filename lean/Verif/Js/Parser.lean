import Verif.Js.Lexer

/-!
# JavaScript expressions

A parser for the expressions generated code consists of: identifiers, integer and string literals, member
access, calls, array and object literals, spread elements, and arrow functions without parameters. It accepts
a subset of ECMA-262: everything it accepts is an expression and is given its structure there (but for white
space between the dots of `...`); trailing commas, parenthesised expressions and operators are not accepted.
-/

namespace Verif.Js
open Verif

/-- Expressions, those that generated code uses. -/
inductive JsExpr where
  | var (x : Str)
  | num (i : Int)
  | str (s : Str)
  | member (e : JsExpr) (name : Str)
  | call (f : JsExpr) (args : List JsExpr)
  | arrow (e : JsExpr)
  | arr (es : List JsExpr)
  | obj (keys : List Str) (vals : List JsExpr)
  /-- `...e`, in an array literal or among the arguments of a call -/
  | spread (e : JsExpr)

/-- Words that are not variable names (ECMA-262, `ReservedWord`, and those reserved in strict mode; modules
are strict). -/
def reserved : List Str :=
  [lit "await", lit "break", lit "case", lit "catch", lit "class", lit "const", lit "continue",
    lit "debugger", lit "default", lit "delete", lit "do", lit "else", lit "enum", lit "export",
    lit "extends", lit "false", lit "finally", lit "for", lit "function", lit "if", lit "import", lit "in",
    lit "instanceof", lit "new", lit "null", lit "return", lit "super", lit "switch", lit "this",
    lit "throw", lit "true", lit "try", lit "typeof", lit "var", lit "void", lit "while", lit "with",
    lit "yield", lit "let", lit "static", lit "implements", lit "interface", lit "package",
    lit "private", lit "protected", lit "public", lit "arguments", lit "eval"]

/-- What is being read around the current position; lists are reversed. -/
inductive Frame where
  | arr (done : List JsExpr)
  | call (f : JsExpr) (args : List JsExpr)
  /-- expecting the value of `key` -/
  | objVal (keys : List Str) (vals : List JsExpr) (key : Str)
  /-- expecting a key -/
  | objKey (keys : List Str) (vals : List JsExpr)
  | arrow
  | spread

/-- Whether an operand is needed or has been read. -/
inductive Cur where
  | need
  | needOrClose
  | have_ (e : JsExpr)
  | dot (e : JsExpr)
  | key
  | keyOrClose
  | colon (k : Str)
  | neg
  /-- a complete expression that is no operand of `.` or of a call -/
  | closed (e : JsExpr)
  | paren
  | parenClose
  | body
  | dots1
  | dots2

/-- The open brackets, and what has been read last. -/
abbrev PState := List Frame × Cur

/-- A complete expression is followed by `,`, `)`, `]` or `}`. -/
def closeStep : List Frame → JsExpr → Tok → Option PState
  | .arr d :: k, e, .p ',' => some (.arr (e :: d) :: k, .need)
  | .arr d :: k, e, .p ']' => some (k, .have_ (.arr (e :: d).reverse))
  | .call f d :: k, e, .p ',' => some (.call f (e :: d) :: k, .need)
  | .call f d :: k, e, .p ')' => some (k, .have_ (.call f (e :: d).reverse))
  | .objVal ks vs key :: k, e, .p ',' => some (.objKey (key :: ks) (e :: vs) :: k, .key)
  | .objVal ks vs key :: k, e, .p '}' => some (k, .have_ (.obj (key :: ks).reverse (e :: vs).reverse))
  | .arrow :: k, e, t => closeStep k (.arrow e) t
  | .spread :: k, e, t => closeStep k (.spread e) t
  | _, _, _ => none

/-- Words that are not expressions. `arguments` is one (inside a function). -/
def notExpr (w : Str) : Bool := reserved.contains w && w != lit "arguments"

/-- A token where an operand is needed. -/
def needStep (k : List Frame) : Tok → Option PState
  | .ident w => if notExpr w then none else some (k, .have_ (.var w))
  | .num n => some (k, .have_ (.num n))
  | .str s => some (k, .have_ (.str s))
  | .p '[' => some (.arr [] :: k, .needOrClose)
  | .p '{' => some (.objKey [] [] :: k, .keyOrClose)
  | .p '(' => some (k, .paren)
  | .p '-' => some (k, .neg)
  | .p '.' => match k with
    | .arr _ :: _ => some (k, .dots1)
    | .call _ _ :: _ => some (k, .dots1)
    | _ => none
  | _ => none

/-- One token. -/
def pStep (s : PState) (t : Tok) : Option PState :=
  match s.2 with
  | .need => needStep s.1 t
  | .needOrClose => match t with
    | .p ']' => match s.1 with
      | .arr d :: k => some (k, .have_ (.arr d.reverse))
      | _ => none
    | .p ')' => match s.1 with
      | .call f d :: k => some (k, .have_ (.call f d.reverse))
      | _ => none
    | t => needStep s.1 t
  | .have_ e => match t with
    | .p '.' => some (s.1, .dot e)
    | .p '(' => some (.call e [] :: s.1, .needOrClose)
    | t => closeStep s.1 e t
  | .dot e => match t with
    | .ident w => some (s.1, .have_ (.member e w))
    | _ => none
  | .key => match t with
    | .ident w => some (s.1, .colon w)
    | _ => none
  | .keyOrClose => match t with
    | .ident w => some (s.1, .colon w)
    | .p '}' => match s.1 with
      | .objKey ks vs :: k => some (k, .have_ (.obj ks.reverse vs.reverse))
      | _ => none
    | _ => none
  | .colon w => match t with
    | .p ':' => match s.1 with
      | .objKey ks vs :: k => some (.objVal ks vs w :: k, .need)
      | _ => none
    | _ => none
  | .neg => match t with
    | .num n => some (s.1, .closed (.num (-(n : Int))))
    | _ => none
  | .closed e => closeStep s.1 e t
  | .paren => match t with
    | .p ')' => some (s.1, .parenClose)
    | _ => none
  | .parenClose => match t with
    | .arrow => some (.arrow :: s.1, .body)
    | _ => none
  | .body => match t with
    | .ident w => if reserved.contains w then none else some (s.1, .have_ (.var w))
    | _ => none
  | .dots1 => match t with
    | .p '.' => some (s.1, .dots2)
    | _ => none
  | .dots2 => match t with
    | .p '.' => some (.spread :: s.1, .need)
    | _ => none

/-- Many tokens. -/
def pRun (s : PState) : List Tok → Option PState
  | [] => some s
  | t :: r => match pStep s t with
    | some s' => pRun s' r
    | none => none

/-- Reads a token sequence as one expression. -/
def parseExpr (ts : List Tok) : Option JsExpr :=
  match pRun ([], .need) ts with
  | some ([], .have_ e) => some e
  | _ => none

/-! ## Composition -/

theorem pRun_append (s : PState) (a b : List Tok) :
    pRun s (a ++ b) = match pRun s a with
      | some s' => pRun s' b
      | none => none := by
  induction a generalizing s with
  | nil => rfl
  | cons t r ih =>
    rw [List.cons_append, pRun, pRun]
    cases pStep s t with
    | some s' => exact ih s'
    | none => rfl

theorem pRun_append_some {s s' : PState} {a b : List Tok} (h : pRun s a = some s') :
    pRun s (a ++ b) = pRun s' b := by
  rw [pRun_append, h]

/-- A position where an expression may start. -/
def Starts (c : Cur) : Prop := c = .need ∨ c = .needOrClose

/-- The tokens are the expression `e`, wherever an expression may stand. -/
def Parses (ts : List Tok) (e : JsExpr) : Prop :=
  ∀ k c, Starts c → pRun (k, c) ts = some (k, .have_ e)

theorem Parses.parse {ts : List Tok} {e : JsExpr} (h : Parses ts e) : parseExpr ts = some e := by
  unfold parseExpr
  rw [h [] .need (Or.inl rfl)]

/-- The text is the expression. -/
def Denotes (s : Str) (e : JsExpr) : Prop := ∃ ts, Lexes s ts ∧ Parses ts e

/-- The expression a text is. -/
def readExpr (s : Str) : Option JsExpr :=
  match lex s with
  | some ts => parseExpr ts
  | none => none

theorem Denotes.read {s : Str} {e : JsExpr} (h : Denotes s e) : readExpr s = some e := by
  obtain ⟨ts, h1, h2⟩ := h
  unfold readExpr
  rw [h1.lex]
  exact h2.parse

/-- Reading the text takes the parser from one state to another. -/
def Trans (s : Str) (A B : PState) : Prop := ∃ ts, Lexes s ts ∧ pRun A ts = some B

theorem Trans.append {a b : Str} {A B C : PState} (h1 : Trans a A B) (h2 : Trans b B C) :
    Trans (a ++ b) A C := by
  obtain ⟨ta, la, ra⟩ := h1
  obtain ⟨tb, lb, rb⟩ := h2
  exact ⟨ta ++ tb, la.append lb, by rw [pRun_append_some ra, rb]⟩

theorem Trans.nil (A : PState) : Trans [] A A := ⟨[], Lexes.nil, rfl⟩

/-- A constant text. -/
theorem Trans.const {s : Str} {A B : PState} (h : (lexRun ⟨[], .start⟩ s).mode = .start)
    (h' : pRun A (toks s) = some B) : Trans s A B := ⟨_, lexes_toks h, h'⟩

theorem Lexes.unique {s : Str} {a b : List Tok} (h1 : Lexes s a) (h2 : Lexes s b) : a = b := by
  have h := (h1 []).symm.trans (h2 [])
  injection h with h _
  simpa using h

theorem Denotes.trans {s : Str} {e : JsExpr} (h : Denotes s e) (k : List Frame) {c : Cur}
    (hc : Starts c) : Trans s (k, c) (k, .have_ e) := by
  obtain ⟨ts, h1, h2⟩ := h
  exact ⟨ts, h1, h2 k c hc⟩

theorem Denotes.of_trans {s : Str} {e : JsExpr}
    (h : ∀ k c, Starts c → Trans s (k, c) (k, .have_ e)) : Denotes s e := by
  obtain ⟨ts, l, _⟩ := h [] .need (Or.inl rfl)
  refine ⟨ts, l, fun k c hc => ?_⟩
  obtain ⟨ts', l', r⟩ := h k c hc
  rw [Lexes.unique l l']
  exact r

/-- A name followed by text starting with a non-word character. -/
theorem Trans.ident {w b : Str} {A B C : PState} (h : isIdent w = true) (h1 : pStep A (.ident w) = some B)
    (h2 : Trans b B C) (hne : ∃ c r, b = c :: r ∧ isWordChar c = false) : Trans (w ++ b) A C := by
  obtain ⟨tb, lb, rb⟩ := h2
  exact ⟨.ident w :: tb, ident_then h lb hne, by rw [pRun, h1]; exact rb⟩

/-- A quoted text. -/
theorem Trans.quoted {w : Str} {A B : PState} (h : isQuotable w = true) (h1 : pStep A (.str w) = some B) :
    Trans (lit "\"" ++ w ++ lit "\"") A B :=
  ⟨[.str w], quoted_lexes h, by rw [pRun, h1]; rfl⟩

/-- `.m()` after an expression. -/
theorem Denotes.method {s t : Str} {e : JsExpr} {m : Str} (h : Denotes s e)
    (ht : Lexes t [.p '.', .ident m, .p '(', .p ')']) : Denotes (s ++ t) (.call (.member e m) []) :=
  Denotes.of_trans fun k _ hc => (h.trans k hc).append ⟨_, ht, rfl⟩

/-- One text in a call. -/
theorem Denotes.call1 {p s : Str} {e f : JsExpr}
    (hp : ∀ k c, Starts c → Trans p (k, c) (.call f [] :: k, .needOrClose)) (h : Denotes s e) :
    Denotes (p ++ s ++ lit ")") (.call f [e]) :=
  Denotes.of_trans fun k c hc =>
    ((hp k c hc).append (h.trans _ (Or.inr rfl))).append (Trans.const rfl rfl)

/-- Pointwise relation of lists. -/
inductive All2 {α β : Type} (R : α → β → Prop) : List α → List β → Prop
  | nil : All2 R [] []
  | cons {a b l l'} : R a b → All2 R l l' → All2 R (a :: l) (b :: l')

/-- A separator: a comma and white space. -/
def Sep (s : Str) : Prop := Lexes s [.p ',']

theorem sep_comma : Sep (lit ", ") := fun _ => rfl
theorem sep_newline : Sep (lit ",\n") := fun _ => rfl

/-- The elements of an array literal. -/
theorem Trans.elems {sep : Str} (hsep : Sep sep) {ss : List Str} {es : List JsExpr} (h : All2 Denotes ss es)
    (k : List Frame) (d : List JsExpr) {c : Cur} (hc : Starts c) (hne : ss ≠ []) :
    Trans (join sep ss ++ lit "]") (.arr d :: k, c) (k, .have_ (.arr (d.reverse ++ es))) := by
  induction h generalizing d c with
  | nil => exact absurd rfl hne
  | @cons s e ss es h1 h2 ih =>
    cases h2 with
    | nil =>
      refine ((h1.trans _ hc).append (C := (k, .have_ (.arr (d.reverse ++ [e])))) (Trans.const rfl ?_))
      show some _ = _
      rw [List.reverse_cons]
    | @cons s' e' ss es h3 h4 =>
      rw [join_cons_cons, List.append_assoc, List.append_assoc]
      have := ih (e :: d) (Or.inl rfl) (by simp)
      rw [List.reverse_cons, List.append_assoc] at this
      exact (h1.trans _ hc).append (Trans.append ⟨_, hsep, rfl⟩ this)

/-- An array literal. -/
theorem Denotes.arr {sep : Str} (hsep : Sep sep) {ss : List Str} {es : List JsExpr} (h : All2 Denotes ss es) :
    Denotes (lit "[" ++ join sep ss ++ lit "]") (.arr es) := by
  refine Denotes.of_trans fun k c hc => ?_
  rw [List.append_assoc]
  refine Trans.append (B := (.arr [] :: k, .needOrClose)) (Trans.const rfl ?_) ?_
  · rcases hc with rfl | rfl <;> rfl
  · cases h with
    | nil => exact Trans.const rfl rfl
    | cons h1 h2 => exact Trans.elems hsep (.cons h1 h2) k [] (Or.inr rfl) (by simp)

/-- A property `name: value` of an object literal. -/
def Entry (s : Str) (kv : Str × JsExpr) : Prop :=
  isIdent kv.1 = true ∧ ∃ v, s = kv.1 ++ (lit ": " ++ v) ∧ Denotes v kv.2

theorem Entry.trans {s : Str} {kv : Str × JsExpr} (h : Entry s kv) (k : List Frame) (ks : List Str)
    (vs : List JsExpr) {c : Cur} (hc : c = .key ∨ c = .keyOrClose) :
    Trans s (.objKey ks vs :: k, c) (.objVal ks vs kv.1 :: k, .have_ kv.2) := by
  obtain ⟨hi, v, rfl, hv⟩ := h
  refine Trans.ident (B := (.objKey ks vs :: k, .colon kv.1)) hi ?_ ?_ ⟨':', _, rfl, rfl⟩
  · rcases hc with rfl | rfl <;> rfl
  · exact Trans.append (Trans.const rfl rfl) (hv.trans _ (Or.inl rfl))

/-- The properties of an object literal. -/
theorem Trans.entries {sep fin : Str} (hsep : Sep sep) (hfin : Lexes fin [.p '}']) {ss : List Str}
    {kvs : List (Str × JsExpr)} (h : All2 Entry ss kvs)
    (k : List Frame) (ks : List Str) (vs : List JsExpr) {c : Cur} (hc : c = .key ∨ c = .keyOrClose)
    (hne : ss ≠ []) :
    Trans (join sep ss ++ fin) (.objKey ks vs :: k, c)
      (k, .have_ (.obj (ks.reverse ++ kvs.map (·.1)) (vs.reverse ++ kvs.map (·.2)))) := by
  induction h generalizing ks vs c with
  | nil => exact absurd rfl hne
  | @cons s e ss es h1 h2 ih =>
    cases h2 with
    | nil =>
      refine (h1.trans _ _ _ hc).append ⟨_, hfin, ?_⟩
      show some _ = _
      rw [List.reverse_cons, List.reverse_cons]
      rfl
    | @cons s' e' ss es h3 h4 =>
      rw [join_cons_cons, List.append_assoc, List.append_assoc]
      have := ih (e.1 :: ks) (e.2 :: vs) (Or.inl rfl) (by simp)
      rw [List.reverse_cons, List.append_assoc, List.reverse_cons, List.append_assoc] at this
      exact (h1.trans _ _ _ hc).append (Trans.append ⟨_, hsep, rfl⟩ this)

/-- An object literal. -/
theorem Denotes.obj {sep op fin : Str} (hsep : Sep sep) (hop : Lexes op [.p '{']) (hfin : Lexes fin [.p '}'])
    {ss : List Str} {kvs : List (Str × JsExpr)} (h : All2 Entry ss kvs) :
    Denotes (op ++ join sep ss ++ fin) (.obj (kvs.map (·.1)) (kvs.map (·.2))) := by
  refine Denotes.of_trans fun k c hc => ?_
  rw [List.append_assoc]
  refine Trans.append (B := (.objKey [] [] :: k, .keyOrClose)) ⟨_, hop, ?_⟩ ?_
  · rcases hc with rfl | rfl <;> rfl
  · cases h with
    | nil =>
      refine ⟨_, hfin, rfl⟩
    | cons h1 h2 => exact Trans.entries hsep hfin (.cons h1 h2) k [] [] (Or.inr rfl) (by simp)

end Verif.Js
