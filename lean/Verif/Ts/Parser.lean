import Verif.Js.Parser

/-!
# TypeScript types

A parser for the types generated code consists of: type names, generic types, string literals, tuples, object
types, parentheses, `&` and `|`. It accepts a subset of TypeScript: everything it accepts is a type and is
given its structure there (`&` binds more tightly than `|`).
-/

namespace Verif.Ts
open Verif Verif.Js

/-- Types of TypeScript, those that generated code uses. -/
inductive TsType where
  /-- a keyword type or a (qualified) type name -/
  | name (path : List Str)
  /-- `Array<T>`, `Map<K, V>`, .. -/
  | app (path : List Str) (args : List TsType)
  | str (s : Str)
  | tuple (ts : List TsType)
  /-- property name, whether it is optional, type -/
  | obj (props : List (Str × Bool × TsType))
  | union (ts : List TsType)
  | inter (ts : List TsType)

/-- Alternatives, each a list of types that all have to hold. -/
abbrev Dnf := List (List TsType)

/-- An intersection; of one operand, that operand. -/
def ofConj : List TsType → TsType
  | [t] => t
  | c => .inter c

/-- A union; of one operand, that operand. -/
def ofDnf : Dnf → TsType
  | [c] => ofConj c
  | d => .union (d.map ofConj)

/-- Words that cannot start a type here: reserved words other than `null`, and TypeScript's type operators. -/
def typeOperators : List Str :=
  [lit "keyof", lit "unique", lit "readonly", lit "infer", lit "asserts", lit "abstract"]

/-- Words a type can begin with. -/
def startsType (w : Str) : Bool := w = lit "null" || !(reserved.contains w || typeOperators.contains w)

/-- The operands read so far: complete alternatives, and the operands of `&` in the current one. -/
structure Ops where
  alts : Dnf
  conj : List TsType

/-- No operands yet. -/
def Ops.none : Ops := ⟨[], []⟩

/-- The operands with a last one. -/
def Ops.add (o : Ops) (t : TsType) : Dnf := o.alts ++ [o.conj ++ [t]]

/-- An open bracket, and what precedes it. -/
inductive TFrame where
  | paren (o : Ops)
  | tuple (o : Ops) (done : List TsType)
  | app (o : Ops) (path : List Str) (done : List TsType)
  | objKey (o : Ops) (props : List (Str × Bool × TsType))
  | objVal (o : Ops) (props : List (Str × Bool × TsType)) (k : Str) (opt : Bool)

/-- Whether an operand is needed or has been read. -/
inductive TCur where
  | need (o : Ops)
  | needOrClose
  | named (o : Ops) (path : List Str)
  | dot (o : Ops) (path : List Str)
  | have_ (d : Dnf)
  | key
  | keyOrClose
  | afterKey (k : Str)
  | colon (k : Str)

/-- The open brackets, and what has been read last. -/
abbrev TState := List TFrame × TCur

/-- A token where a type is needed. -/
def needT (k : List TFrame) (o : Ops) : Tok → Option TState
  | .ident w => if startsType w then some (k, .named o [w]) else none
  | .str s => some (k, .have_ (o.add (.str s)))
  | .p '(' => some (.paren o :: k, .need .none)
  | .p '[' => some (.tuple o [] :: k, .needOrClose)
  | .p '{' => some (.objKey o [] :: k, .keyOrClose)
  | _ => none

/-- A complete type is followed by an operator, a separator or a closing bracket. -/
def haveT (k : List TFrame) (d : Dnf) (t : Tok) : Option TState :=
  match t with
  | .p '|' => some (k, .need ⟨d, []⟩)
  | .p '&' => some (k, .need ⟨d.dropLast, (d.getLast?).getD []⟩)
  | .p ',' => match k with
    | .tuple o l :: k => some (.tuple o (l ++ [ofDnf d]) :: k, .need .none)
    | .app o p l :: k => some (.app o p (l ++ [ofDnf d]) :: k, .need .none)
    | .objVal o ps key opt :: k => some (.objKey o (ps ++ [(key, opt, ofDnf d)]) :: k, .key)
    | _ => none
  | .p ')' => match k with
    | .paren o :: k => some (k, .have_ (o.add (ofDnf d)))
    | _ => none
  | .p ']' => match k with
    | .tuple o l :: k => some (k, .have_ (o.add (.tuple (l ++ [ofDnf d]))))
    | _ => none
  | .p '>' => match k with
    | .app o p l :: k => some (k, .have_ (o.add (.app p (l ++ [ofDnf d]))))
    | _ => none
  | .p '}' => match k with
    | .objVal o ps key opt :: k => some (k, .have_ (o.add (.obj (ps ++ [(key, opt, ofDnf d)]))))
    | _ => none
  | _ => none

/-- One token. -/
def tStep (s : TState) (t : Tok) : Option TState :=
  match s.2 with
  | .need o => needT s.1 o t
  | .needOrClose => match t with
    | .p ']' => match s.1 with
      | .tuple o l :: k => some (k, .have_ (o.add (.tuple l)))
      | _ => none
    | t => needT s.1 .none t
  | .named o p => match t with
    | .p '.' => some (s.1, .dot o p)
    | .p '<' => some (.app o p [] :: s.1, .need .none)
    | t => haveT s.1 (o.add (.name p)) t
  | .dot o p => match t with
    | .ident w => some (s.1, .named o (p ++ [w]))
    | _ => none
  | .have_ d => haveT s.1 d t
  | .key => match t with
    | .ident w => some (s.1, .afterKey w)
    | _ => none
  | .keyOrClose => match t with
    | .ident w => some (s.1, .afterKey w)
    | .p '}' => match s.1 with
      | .objKey o ps :: k => some (k, .have_ (o.add (.obj ps)))
      | _ => none
    | _ => none
  | .afterKey w => match t with
    | .p '?' => some (s.1, .colon w)
    | .p ':' => match s.1 with
      | .objKey o ps :: k => some (.objVal o ps w false :: k, .need .none)
      | _ => none
    | _ => none
  | .colon w => match t with
    | .p ':' => match s.1 with
      | .objKey o ps :: k => some (.objVal o ps w true :: k, .need .none)
      | _ => none
    | _ => none

/-- Many tokens. -/
def tRun (s : TState) : List Tok → Option TState
  | [] => some s
  | t :: r => match tStep s t with
    | some s' => tRun s' r
    | none => none

/-- Reads a token sequence as one type. -/
def parseType (ts : List Tok) : Option TsType :=
  match tRun ([], .need .none) ts with
  | some ([], .have_ d) => some (ofDnf d)
  | some ([], .named o p) => some (ofDnf (o.add (.name p)))
  | _ => none

/-- The type a text is. -/
def readType (s : Str) : Option TsType :=
  match lex s with
  | some ts => parseType ts
  | none => none

set_option maxRecDepth 2000 in
example : readType (lit "{a: number,\nb?: Array<(Ns.T | undefined)> | undefined} & X | [string, null]") =
    some (.union [.inter [.obj [(lit "a", false, .name [lit "number"]),
        (lit "b", true, .union [.app [lit "Array"] [.union [.name [lit "Ns", lit "T"], .name [lit "undefined"]]],
          .name [lit "undefined"]])], .name [lit "X"]],
      .tuple [.name [lit "string"], .name [lit "null"]]]) := rfl
example : readType (lit "[a, ]") = none := rfl
example : readType (lit "string number") = none := rfl

/-! ## Composition -/

theorem tRun_append_some {s s' : TState} {a b : List Tok} (h : tRun s a = some s') :
    tRun s (a ++ b) = tRun s' b := by
  induction a generalizing s with
  | nil => injection h with h; subst h; rfl
  | cons t r ih =>
    rw [List.cons_append, tRun]
    rw [tRun] at h
    cases hs : tStep s t with
    | some x => rw [hs] at h; exact ih h
    | none => rw [hs] at h; cases h

/-- A position where a type may start, after these operands. -/
def TStarts (c : TCur) (o : Ops) : Prop := c = .need o ∨ (c = .needOrClose ∧ o = .none)

/-- The type has been read; with the operands before it this is `d`. -/
def TEnds (c : TCur) (d : Dnf) : Prop := c = .have_ d ∨ ∃ o p, c = .named o p ∧ o.add (.name p) = d

/-- The operands continued by a text with alternatives `d`. -/
def Ops.cont (o : Ops) : Dnf → Dnf
  | [] => o.alts
  | c :: r => o.alts ++ [o.conj ++ c] ++ r

/-- The text is a type with alternatives `d`, wherever a type may stand. -/
def Den (s : Str) (d : Dnf) : Prop :=
  d ≠ [] ∧ ∃ ts, LexesW s ts ∧ ∀ k c o, TStarts c o → ∃ c', tRun (k, c) ts = some (k, c') ∧ TEnds c' (o.cont d)

theorem Den.read {s : Str} {d : Dnf} (h : Den s d) : readType s = some (ofDnf d) := by
  obtain ⟨hne, ts, hl, h⟩ := h
  obtain ⟨c', h, he⟩ := h [] (.need .none) .none (Or.inl rfl)
  have hc : Ops.none.cont d = d := by
    cases d with
    | nil => exact absurd rfl hne
    | cons c r => rfl
  rw [hc] at he
  unfold readType
  rw [hl.lex]
  unfold parseType
  simp only [h]
  rcases he with rfl | ⟨o, p, rfl, he⟩
  · rfl
  · simp only [he]

/-- Reading the text takes the parser from one state to another. -/
def TTrans (s : Str) (A B : TState) : Prop := ∃ ts, Lexes s ts ∧ tRun A ts = some B

theorem TTrans.append {a b : Str} {A B C : TState} (h1 : TTrans a A B) (h2 : TTrans b B C) : TTrans (a ++ b) A C := by
  obtain ⟨ta, la, ra⟩ := h1
  obtain ⟨tb, lb, rb⟩ := h2
  exact ⟨ta ++ tb, la.append lb, by rw [tRun_append_some ra, rb]⟩

theorem TTrans.nil (A : TState) : TTrans [] A A := ⟨[], Lexes.nil, rfl⟩

/-- A constant text. -/
theorem TTrans.const {s : Str} {A B : TState} (h : (lexRun ⟨[], .start⟩ s).mode = .start)
    (h' : tRun A (toks s) = some B) : TTrans s A B := ⟨_, lexes_toks h, h'⟩

/-- A name followed by text starting with a non-word character. -/
theorem TTrans.ident {w b : Str} {A B C : TState} (h : isIdent w = true) (h1 : tStep A (.ident w) = some B)
    (h2 : TTrans b B C) (hne : ∃ c r, b = c :: r ∧ isWordChar c = false) : TTrans (w ++ b) A C := by
  obtain ⟨tb, lb, rb⟩ := h2
  exact ⟨.ident w :: tb, ident_then h lb hne, by rw [tRun, h1]; exact rb⟩

/-- A quoted text. -/
theorem TTrans.quoted {w : Str} {A B : TState} (h : isQuotable w = true) (h1 : tStep A (.str w) = some B) :
    TTrans (lit "\"" ++ w ++ lit "\"") A B :=
  ⟨_, quoted_lexes h, by rw [tRun, h1]; rfl⟩

/-- Tokens that do not continue a type name. -/
def stops : List Tok → Bool
  | .p '.' :: _ => false
  | .p '<' :: _ => false
  | _ :: _ => true
  | [] => false

theorem tRun_ends {k : List TFrame} {c : TCur} {d : Dnf} (he : TEnds c d) {ts : List Tok} (h : stops ts = true) :
    tRun (k, c) ts = tRun (k, .have_ d) ts := by
  rcases he with rfl | ⟨o, p, rfl, he⟩
  · rfl
  · cases ts with
    | nil => cases h
    | cons t r =>
      have : tStep (k, .named o p) t = tStep (k, .have_ d) t := by
        rw [← he]
        cases t with
        | p x =>
          by_cases h1 : x = '.'
          · subst h1; cases h
          · by_cases h2 : x = '<'
            · subst h2; cases h
            · simp only [tStep]
              split
              · rename_i e; injection e with e; exact absurd e h1
              · rename_i e; injection e with e; exact absurd e h2
              · rfl
        | _ => rfl
      rw [tRun, tRun, this]

/-- A type followed by a constant text. -/
theorem Den.then {s b : Str} {d : Dnf} (hd : Den s d) {k : List TFrame} {c : TCur} {o : Ops} (hc : TStarts c o)
    (hb : (lexRun ⟨[], .start⟩ b).mode = .start) (hne : ∃ c r, b = c :: r ∧ isWordChar c = false)
    (hs : stops (toks b) = true) {B : TState} (hB : tRun (k, .have_ (o.cont d)) (toks b) = some B) :
    TTrans (s ++ b) (k, c) B := by
  obtain ⟨_, ts, hl, h⟩ := hd
  obtain ⟨c', h, he⟩ := h k c o hc
  refine ⟨ts ++ toks b, hl.append (lexes_toks hb) hne, ?_⟩
  rw [tRun_append_some h, tRun_ends he hs]
  exact hB

theorem cont_none {d : Dnf} (h : d ≠ []) : Ops.none.cont d = d := by
  cases d with
  | nil => exact absurd rfl h
  | cons c r => rfl

/-- A text that is read as a single operand. -/
theorem Den.of_trans {s : Str} {t : TsType}
    (h : ∀ k c o, TStarts c o → TTrans s (k, c) (k, .have_ (o.add t))) : Den s [[t]] := by
  obtain ⟨ts, l, _⟩ := h [] (.need .none) .none (Or.inl rfl)
  refine ⟨by simp, ts, l.weaken, fun k c o hc => ?_⟩
  obtain ⟨ts', l', r⟩ := h k c o hc
  rw [Lexes.unique l l']
  exact ⟨_, r, Or.inl (by simp [Ops.cont, Ops.add])⟩

theorem needT_ident {k : List TFrame} {o : Ops} {w : Str} (h : startsType w = true) :
    needT k o (.ident w) = some (k, .named o [w]) := by
  simp [needT, h]

theorem tStep_ident {k : List TFrame} {c : TCur} {o : Ops} (hc : TStarts c o) {w : Str} (h : startsType w = true) :
    tStep (k, c) (.ident w) = some (k, .named o [w]) := by
  rcases hc with rfl | ⟨rfl, rfl⟩
  · exact needT_ident h
  · exact needT_ident h

/-- A keyword type. -/
theorem Den.word {w : Str} (hi : isIdent w = true) (h : startsType w = true) : Den w [[.name [w]]] := by
  refine ⟨by simp, [.ident w], ident_lexesW hi, fun k c o hc => ⟨_, ?_, Or.inr ⟨o, [w], rfl, ?_⟩⟩⟩
  · rw [tRun, tStep_ident hc h]; rfl
  · simp [Ops.cont, Ops.add]

/-- `NS.NAME`. -/
theorem Den.ref {a b : Str} (ha : isIdent a = true) (h : startsType a = true) (hb : isIdent b = true) :
    Den (a ++ (lit "." ++ b)) [[.name [a, b]]] := by
  have hdot : Lexes (lit ".") [.p '.'] := lexes_toks rfl
  refine ⟨by simp, [.ident a, .p '.', .ident b], ?_, fun k c o hc => ⟨_, ?_, Or.inr ⟨o, [a, b], rfl, ?_⟩⟩⟩
  · exact (ident_lexesW ha).appendW (hdot.appendW (ident_lexesW hb)) ⟨'.', b, rfl, by decide⟩
  · rw [tRun, tStep_ident hc h]; rfl
  · simp [Ops.cont, Ops.add]

theorem Den.literal {w : Str} (h : isQuotable w = true) : Den (lit "\"" ++ w ++ lit "\"") [[.str w]] := by
  refine Den.of_trans fun k c o hc => TTrans.quoted h ?_
  rcases hc with rfl | ⟨rfl, rfl⟩ <;> rfl

/-- Separators between the elements of a list. -/
structure TsSep (sep : Str) : Prop where
  lexed : (lexRun ⟨[], .start⟩ sep).mode = .start
  comma : toks sep = [.p ',']
  start : ∃ c r, sep = c :: r ∧ isWordChar c = false

theorem tsSep_comma : TsSep (lit ", ") := ⟨rfl, rfl, ⟨_, _, rfl, rfl⟩⟩
theorem tsSep_newline : TsSep (lit ",\n") := ⟨rfl, rfl, ⟨_, _, rfl, rfl⟩⟩

/-- `(T)`, where the text before the closing parenthesis may go on. -/
theorem Den.paren {s : Str} {d : Dnf} (h : Den s d) : Den (lit "(" ++ (s ++ lit ")")) [[ofDnf d]] := by
  refine Den.of_trans fun k c o hc => TTrans.append (B := (.paren o :: k, .need .none)) (TTrans.const rfl ?_) ?_
  · rcases hc with rfl | ⟨rfl, rfl⟩ <;> rfl
  · refine h.then (Or.inl rfl) rfl ⟨_, _, rfl, rfl⟩ rfl ?_
    rw [cont_none h.1]; rfl

/-- `A | B`. -/
theorem Den.or {a b : Str} {d e : Dnf} (ha : Den a d) (hb : Den b e) : Den (a ++ (lit " | " ++ b)) (d ++ e) := by
  obtain ⟨hd, ta, la, ra⟩ := ha
  obtain ⟨he, tb, lb, rb⟩ := hb
  have hsep : Lexes (lit " | ") [.p '|'] := lexes_toks rfl
  refine ⟨by simp [hd], ta ++ ([.p '|'] ++ tb), la.appendW (hsep.appendW lb) ⟨' ', _, rfl, rfl⟩, fun k c o hc => ?_⟩
  obtain ⟨c1, r1, e1⟩ := ra k c o hc
  obtain ⟨c2, r2, e2⟩ := rb k (.need ⟨o.cont d, []⟩) _ (Or.inl rfl)
  refine ⟨c2, ?_, ?_⟩
  · rw [tRun_append_some r1, tRun_ends e1 rfl]
    show tRun (k, .need ⟨o.cont d, []⟩) tb = _
    exact r2
  · cases d with
    | nil => exact absurd rfl hd
    | cons x r =>
      cases e with
      | nil => exact absurd rfl he
      | cons y r' => simpa [Ops.cont] using e2

/-- The alternatives of `A & B` with `A` and `B` not in parentheses. -/
def andDnf (d e : Dnf) : Dnf :=
  match d, e with
  | [], _ => []
  | _, [] => []
  | x :: d, c :: r => (x :: d).dropLast ++ [((x :: d).getLast?).getD [] ++ c] ++ r

/-- `A & B`, with the operator written as `amp` (` & ` or `& `). -/
theorem Den.and {a b amp : Str} {d e : Dnf} (ha : Den a d) (hb : Den b e) (hl : (lexRun ⟨[], .start⟩ amp).mode = .start)
    (ht : toks amp = [.p '&']) (hne : ∃ c r, amp = c :: r ∧ isWordChar c = false) :
    Den (a ++ (amp ++ b)) (andDnf d e) := by
  obtain ⟨hd, ta, la, ra⟩ := ha
  obtain ⟨he, tb, lb, rb⟩ := hb
  have hsep : Lexes amp [.p '&'] := ht ▸ lexes_toks hl
  have hne' : ∃ c r, amp ++ b = c :: r ∧ isWordChar c = false := by
    obtain ⟨c, r, rfl, h⟩ := hne
    exact ⟨c, r ++ b, rfl, h⟩
  refine ⟨?_, ta ++ ([.p '&'] ++ tb), la.appendW (hsep.appendW lb) hne', fun k c o hc => ?_⟩
  · cases d with
    | nil => exact absurd rfl hd
    | cons x d =>
      cases e with
      | nil => exact absurd rfl he
      | cons c r => simp [andDnf]
  · obtain ⟨c1, r1, e1⟩ := ra k c o hc
    obtain ⟨c2, r2, e2⟩ := rb k (.need ⟨(o.cont d).dropLast, ((o.cont d).getLast?).getD []⟩) _ (Or.inl rfl)
    refine ⟨c2, ?_, ?_⟩
    · rw [tRun_append_some r1, tRun_ends e1 rfl]
      exact r2
    · have : Ops.cont ⟨(o.cont d).dropLast, ((o.cont d).getLast?).getD []⟩ e = o.cont (andDnf d e) := by
        cases e with
        | nil => exact absurd rfl he
        | cons y r' =>
          cases d with
          | nil => exact absurd rfl hd
          | cons x r =>
            cases r with
            | nil => simp [Ops.cont, andDnf]
            | cons z r =>
              simp only [Ops.cont, andDnf, List.append_assoc]
              have h1 : (o.alts ++ ([o.conj ++ x] ++ z :: r)).dropLast = o.alts ++ ([o.conj ++ x] ++ (z :: r).dropLast) := by
                rw [List.dropLast_append_of_ne_nil (by simp), List.dropLast_append_of_ne_nil (by simp)]
              have h2 : (o.alts ++ ([o.conj ++ x] ++ z :: r)).getLast? = (z :: r).getLast? := by
                simp [List.getLast?_append, List.getLast?_cons]
              rw [h1, h2]
              simp [List.dropLast]
      rw [← this]; exact e2

/-! ### Lists -/

/-- What follows the first element of a list. -/
theorem list_rest {sep fin : Str} (hsep : TsSep sep) (hf : (lexRun ⟨[], .start⟩ fin).mode = .start)
    (hfs : ∃ c r, fin = c :: r ∧ isWordChar c = false) (hfst : stops (toks fin) = true)
    (fr : List TsType → TFrame) (k : List TFrame) (B : List TsType → TState)
    (hcomma : ∀ l d, haveT (fr l :: k) d (.p ',') = some (fr (l ++ [ofDnf d]) :: k, .need .none))
    (hfin : ∀ l d, tRun (fr l :: k, .have_ d) (toks fin) = some (B (l ++ [ofDnf d])))
    {ss : List Str} {ds : List Dnf} (h : All2 Den ss ds) (hne : ss ≠ []) (l : List TsType) {c : TCur}
    (hc : TStarts c .none) :
    TTrans (join sep ss ++ fin) (fr l :: k, c) (B (l ++ ds.map ofDnf)) := by
  induction h generalizing l c with
  | nil => exact absurd rfl hne
  | @cons s d ss ds h1 h2 ih =>
    cases h2 with
    | nil =>
      refine h1.then hc hf hfs hfst ?_
      rw [cont_none h1.1]
      exact hfin l d
    | @cons s2 d2 ss ds h2 h3 =>
      rw [join_cons_cons, List.append_assoc, List.append_assoc, ← List.append_assoc]
      have step : TTrans (s ++ sep) (fr l :: k, c) (fr (l ++ [ofDnf d]) :: k, .need .none) := by
        refine h1.then hc hsep.lexed hsep.start (by rw [hsep.comma]; rfl) ?_
        rw [cont_none h1.1, hsep.comma, tRun]
        show (match haveT (fr l :: k) d (.p ',') with
          | some s' => tRun s' []
          | none => none) = _
        rw [hcomma]; rfl
      have := ih (by simp) (l ++ [ofDnf d]) (Or.inl rfl)
      rw [List.append_assoc] at this
      exact step.append this

theorem Den.tuple {ss : List Str} {ds : List Dnf} (h : All2 Den ss ds) :
    Den (lit "[" ++ (join (lit ", ") ss ++ lit "]")) [[.tuple (ds.map ofDnf)]] := by
  refine Den.of_trans fun k c o hc => TTrans.append (B := (.tuple o [] :: k, .needOrClose)) (TTrans.const rfl ?_) ?_
  · rcases hc with rfl | ⟨rfl, rfl⟩ <;> rfl
  · cases ss with
    | nil => cases h; exact TTrans.const rfl rfl
    | cons s ss =>
      have := list_rest (fin := lit "]") tsSep_comma rfl ⟨_, _, rfl, rfl⟩ rfl (fun l => .tuple o l) k
        (fun l => (k, .have_ (o.add (.tuple l)))) (fun _ _ => rfl) (fun _ _ => rfl) h (by simp) []
        (c := .needOrClose) (Or.inr ⟨rfl, rfl⟩)
      simpa using this

/-- `NAME<T, ..>`; `op` is `NAME<`. -/
theorem Den.app {op : Str} {p : Str} (hop : ∀ k c o, TStarts c o → TTrans op (k, c) (.app o [p] [] :: k, .need .none))
    {ss : List Str} {ds : List Dnf} (h : All2 Den ss ds) (hne : ss ≠ []) :
    Den (op ++ (join (lit ", ") ss ++ lit ">")) [[.app [p] (ds.map ofDnf)]] := by
  refine Den.of_trans fun k c o hc => TTrans.append (hop k c o hc) ?_
  have := list_rest (fin := lit ">") tsSep_comma rfl ⟨_, _, rfl, rfl⟩ rfl (fun l => .app o [p] l) k
    (fun l => (k, .have_ (o.add (.app [p] l)))) (fun _ _ => rfl) (fun _ _ => rfl) h hne []
    (c := .need .none) (Or.inl rfl)
  simpa using this

/-! ### Object types -/

/-- A property: `name: T` or `name?: T`. -/
def DenProp (s : Str) (p : Str × Bool × Dnf) : Prop :=
  isIdent p.1 = true ∧ ∃ x, s = p.1 ++ ((if p.2.1 then lit "?: " else lit ": ") ++ x) ∧ Den x p.2.2

/-- A property with its type. -/
def propT (p : Str × Bool × Dnf) : Str × Bool × TsType := (p.1, p.2.1, ofDnf p.2.2)

theorem prop_start {k : List TFrame} {o : Ops} {ps : List (Str × Bool × TsType)} {c : TCur} (hc : c = .key ∨ c = .keyOrClose)
    {w : Str} (hw : isIdent w = true) (opt : Bool) :
    TTrans (w ++ (if opt then lit "?: " else lit ": ")) (.objKey o ps :: k, c) (.objVal o ps w opt :: k, .need .none) := by
  refine TTrans.ident (B := (.objKey o ps :: k, .afterKey w)) hw (by rcases hc with rfl | rfl <;> rfl) ?_ ?_
  · cases opt
    · exact TTrans.const rfl rfl
    · exact TTrans.const rfl rfl
  · cases opt
    · exact ⟨_, _, rfl, rfl⟩
    · exact ⟨_, _, rfl, rfl⟩

theorem props_rest {sep fin : Str} (hsep : TsSep sep) (hf : (lexRun ⟨[], .start⟩ fin).mode = .start)
    (hfs : ∃ c r, fin = c :: r ∧ isWordChar c = false) (hft : toks fin = [.p '}'])
    (k : List TFrame) (o : Ops) {ss : List Str} {ds : List (Str × Bool × Dnf)} (h : All2 DenProp ss ds) (hne : ss ≠ [])
    (l : List (Str × Bool × TsType)) {c : TCur} (hc : c = .key ∨ c = .keyOrClose) :
    TTrans (join sep ss ++ fin) (.objKey o l :: k, c) (k, .have_ (o.add (.obj (l ++ ds.map propT)))) := by
  induction h generalizing l c with
  | nil => exact absurd rfl hne
  | @cons s d ss ds h1 h2 ih =>
    obtain ⟨hw, x, rfl, hx⟩ := h1
    have hst := prop_start (k := k) (o := o) (ps := l) hc hw d.2.1
    cases h2 with
    | nil =>
      rw [join_singleton, ← List.append_assoc, List.append_assoc]
      refine hst.append (hx.then (Or.inl rfl) hf hfs (by rw [hft]; rfl) ?_)
      rw [cont_none hx.1, hft]
      rfl
    | @cons s2 d2 ss ds h2 h3 =>
      rw [join_cons_cons]
      have step : TTrans (x ++ sep) (.objVal o l d.1 d.2.1 :: k, .need .none) (.objKey o (l ++ [propT d]) :: k, .key) := by
        refine hx.then (Or.inl rfl) hsep.lexed hsep.start (by rw [hsep.comma]; rfl) ?_
        rw [cont_none hx.1, hsep.comma]
        rfl
      have rest := ih (by simp) (l ++ [propT d]) (Or.inl rfl)
      have := (hst.append step).append rest
      simp only [List.append_assoc, List.map_cons, List.singleton_append] at this ⊢
      exact this

/-- `{ .. }`; `op` and `fin` are the braces with the spaces inside them. -/
theorem Den.obj {sep op fin : Str} (hsep : TsSep sep) (ho : (lexRun ⟨[], .start⟩ op).mode = .start)
    (hot : toks op = [.p '{']) (hf : (lexRun ⟨[], .start⟩ fin).mode = .start)
    (hfs : ∃ c r, fin = c :: r ∧ isWordChar c = false) (hft : toks fin = [.p '}'])
    {ss : List Str} {ds : List (Str × Bool × Dnf)} (h : All2 DenProp ss ds) :
    Den (op ++ (join sep ss ++ fin)) [[.obj (ds.map propT)]] := by
  refine Den.of_trans fun k c o hc => TTrans.append (B := (.objKey o [] :: k, .keyOrClose)) (TTrans.const ho ?_) ?_
  · rw [hot]; rcases hc with rfl | ⟨rfl, rfl⟩ <;> rfl
  · cases ss with
    | nil =>
      cases h
      refine TTrans.const hf ?_
      show tRun _ (toks fin) = _
      rw [hft]; rfl
    | cons s ss =>
      have := props_rest hsep hf hfs hft k o h (by simp) [] (c := .keyOrClose) (Or.inr rfl)
      simpa using this

end Verif.Ts
