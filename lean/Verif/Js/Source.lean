import Verif.Js.Parser

/-!
# Source text: comments and line breaks

The tokens of a source text with comments, each with the information whether a line break stands before it,
which decides about automatic semicolon insertion (ECMA-262, 12.4, 12.10). The tokens themselves are those of
`Verif/Js/Lexer.lean`. A division sign is not a token here.
-/

namespace Verif.Js
open Verif

/-- A token, and whether a line break (possibly in a comment) separates it from the token before. -/
abbrev FTok := Tok × Bool

/-- Inside of a comment, or not. -/
inductive XMode where
  | code (m : Mode)
  /-- after `/` -/
  | slash
  /-- in a `//` comment -/
  | line
  /-- in a `/*` comment -/
  | block
  /-- in a `/*` comment, after `*` -/
  | star
  | bad
  deriving DecidableEq

/-- The tokens so far, last first; whether there was a line break since; the token being read. -/
structure XState where
  toks : List FTok
  nl : Bool
  mode : XMode
  deriving DecidableEq

/-- Appends new tokens (last first). Only the first of them has the line break before it. -/
def pushToks (X : List FTok) (nl : Bool) : List Tok → List FTok
  | [] => X
  | [t] => (t, nl) :: X
  | t :: r => (t, false) :: pushToks X nl r

/-- Line breaks. -/
def isNewline (c : Char) : Bool := c = '\n' || c = '\r'

/-- In a string literal or after an error, `/` does not start a comment. -/
def Mode.slashIsComment : Mode → Bool
  | .str _ => false
  | .bad => false
  | _ => true

/-- One character outside of comments. -/
def codeStep (X : List FTok) (nl : Bool) (m : Mode) (c : Char) : XState :=
  let s := lexStep ⟨[], m⟩ (if c = '/' && m.slashIsComment then ' ' else c)
  ⟨pushToks X nl s.acc, (if s.acc.isEmpty then nl else false) || isNewline c,
    if c = '/' && m.slashIsComment then (if s.mode = .start then .slash else .bad) else .code s.mode⟩

/-- One character. -/
def xStep (s : XState) (c : Char) : XState :=
  match s.mode with
  | .code m => codeStep s.toks s.nl m c
  | .slash => if c = '/' then { s with mode := .line } else if c = '*' then { s with mode := .block } else { s with mode := .bad }
  | .line => if isNewline c then ⟨s.toks, true, .code .start⟩ else s
  | .block => ⟨s.toks, s.nl || isNewline c, if c = '*' then .star else .block⟩
  | .star =>
      ⟨s.toks, s.nl || isNewline c, if c = '/' then .code .start else if c = '*' then .star else .block⟩
  | .bad => s

/-- Many characters. -/
def xRun (s : XState) (cs : Str) : XState := cs.foldl xStep s

/-- The tokens of a source text; `none` if it does not lex. -/
def source (cs : Str) : Option (List FTok) :=
  -- the line break at the end completes a last word and ends a last line comment
  let s := xRun ⟨[], false, .code .start⟩ (cs ++ lit "\n")
  match s.mode with
  | .code .start => some s.toks.reverse
  | _ => none

example : source (lit "a // b\n/* c\n*/ d /**/ \"//\"") =
    some [(.ident (lit "a"), false), (.ident (lit "d"), true), (.str (lit "//"), false)] := by decide +kernel
example : source (lit "a /* b") = none := by decide +kernel
example : source (lit "a\nb=\n>") =
    some [(.ident (lit "a"), false), (.ident (lit "b"), true), (.p '=', false), (.p '>', true)] := by decide +kernel

/-! ## Composition -/

theorem xRun_append (s : XState) (a b : Str) : xRun s (a ++ b) = xRun (xRun s a) b := by
  simp [xRun, List.foldl_append]

theorem xRun_cons (s : XState) (c : Char) (r : Str) : xRun s (c :: r) = xRun (xStep s c) r := rfl

/-- New tokens with their line breaks, last first, of which `ts` are the tokens. If a line break came before the
text, it stands before the first of them. -/
def Flagged (nl : Bool) (fs : List FTok) (nl' : Bool) : Prop :=
  nl = true → (fs = [] ∧ nl' = true) ∨ ∃ t r, fs = r ++ [(t, true)]

theorem pushToks_eq (X : List FTok) (nl : Bool) (ts : List Tok) :
    ∃ fs, pushToks X nl ts = fs ++ X ∧ fs.map (·.1) = ts ∧
      (nl = true → ts ≠ [] → ∃ t r, fs = r ++ [(t, true)]) := by
  induction ts with
  | nil => exact ⟨[], rfl, rfl, fun _ h => absurd rfl h⟩
  | cons t r ih =>
    cases r with
    | nil => exact ⟨[(t, nl)], rfl, rfl, fun h _ => ⟨t, [], by rw [h]; rfl⟩⟩
    | cons u r =>
      obtain ⟨fs, h1, h2, h3⟩ := ih
      refine ⟨(t, false) :: fs, ?_, by simp [h2], fun h _ => ?_⟩
      · show (t, false) :: pushToks X nl (u :: r) = _
        rw [h1]; rfl
      · obtain ⟨t', r', e⟩ := h3 h (by simp)
        exact ⟨t', (t, false) :: r', by rw [e]; rfl⟩

theorem lexStep_bad (acc : List Tok) (s : Str) : lexRun ⟨acc, .bad⟩ s = ⟨acc, .bad⟩ := by
  induction s with
  | nil => rfl
  | cons c r ih => rw [lexRun_cons]; exact ih

theorem slash_bad {m : Mode} (h : m.slashIsComment = true) : (lexStep ⟨[], m⟩ '/').mode = .bad := by
  cases m with
  | start => rfl
  | word w =>
    simp only [lexStep, show isWordChar '/' = false from rfl]
    cases wordTok w.reverse with
    | none => rfl
    | some t => cases t <;> rfl
  | str w => cases h
  | eq => rfl
  | bad => cases h

/-- Text without comments is read as by the plain lexer. -/
theorem xRun_code {s : Str} {m m' : Mode} {a : List Tok} (h : lexRun ⟨[], m⟩ s = ⟨a, m'⟩) (hm : m' ≠ .bad)
    (X : List FTok) (nl : Bool) : ∃ fs nl', xRun ⟨X, nl, .code m⟩ s = ⟨fs ++ X, nl', .code m'⟩ ∧
      fs.map (·.1) = a ∧ Flagged nl fs nl' := by
  induction s generalizing m a X nl with
  | nil =>
    injection h with h1 h2
    subst h1; subst h2
    exact ⟨[], nl, rfl, rfl, fun h => Or.inl ⟨rfl, h⟩⟩
  | cons c r ih =>
    rw [lexRun_cons] at h
    have hstep : (c = '/' && m.slashIsComment) = false := by
      cases hc : (c = '/' && m.slashIsComment : Bool) with
      | false => rfl
      | true =>
        simp only [Bool.and_eq_true, decide_eq_true_eq] at hc
        obtain ⟨rfl, hc⟩ := hc
        have := slash_bad hc
        generalize lexStep ⟨[], m⟩ '/' = q at this h
        obtain ⟨qa, qm⟩ := q
        simp only at this
        subst this
        rw [lexStep_bad] at h
        injection h with _ h
        exact absurd h.symm hm
    have hx : xStep ⟨X, nl, .code m⟩ c = ⟨pushToks X nl (lexStep ⟨[], m⟩ c).acc,
        (if (lexStep ⟨[], m⟩ c).acc.isEmpty then nl else false) || isNewline c, .code (lexStep ⟨[], m⟩ c).mode⟩ := by
      simp only [xStep, codeStep, hstep]
      rfl
    generalize hq : lexStep ⟨[], m⟩ c = q at h hx
    obtain ⟨b, m1⟩ := q
    simp only at hx
    have e := lexRun_acc [] b m1 r
    rw [List.nil_append] at e
    rw [e] at h
    injection h with h1 h2
    subst h1
    obtain ⟨gs, hg1, hg2, hg3⟩ := pushToks_eq X nl b
    rw [hg1] at hx
    obtain ⟨fs, nl', hf1, hf2, hf3⟩ := ih (m := m1) (a := (lexRun ⟨[], m1⟩ r).acc) (by rw [← h2]) (gs ++ X)
      ((if b.isEmpty then nl else false) || isNewline c)
    refine ⟨fs ++ gs, nl', ?_, by rw [List.map_append, hf2, hg2], fun hnl => ?_⟩
    · rw [xRun_cons, hx, hf1, List.append_assoc]
    · cases b with
      | nil =>
        have : gs = [] := by simpa using hg2
        subst this
        subst hnl
        rw [List.append_nil]
        exact hf3 rfl
      | cons t r =>
        obtain ⟨t', r', e⟩ := hg3 hnl (by simp)
        exact Or.inr ⟨t', fs ++ r', by rw [e, List.append_assoc]⟩

/-- Reading the text, which ends between tokens, gives these tokens, wherever it stands; a line break before it
comes before the first of them. -/
def Sources (s : Str) (ts : List Tok) : Prop :=
  ∀ X nl, ∃ fs nl', xRun ⟨X, nl, .code .start⟩ s = ⟨fs.reverse ++ X, nl', .code .start⟩ ∧
    fs.map (·.1) = ts ∧ (nl = true → (fs = [] ∧ nl' = true) ∨ ∃ t r, fs = (t, true) :: r)

theorem Lexes.sources {s : Str} {ts : List Tok} (h : Lexes s ts) : Sources s ts := by
  intro X nl
  have h0 := h []
  rw [List.append_nil] at h0
  obtain ⟨fs, nl', h1, h2, h3⟩ := xRun_code h0 (by simp) X nl
  refine ⟨fs.reverse, nl', by rw [List.reverse_reverse]; exact h1, by rw [List.map_reverse, h2, List.reverse_reverse],
    fun hnl => ?_⟩
  rcases h3 hnl with ⟨rfl, h⟩ | ⟨t, r, rfl⟩
  · exact Or.inl ⟨rfl, h⟩
  · exact Or.inr ⟨t, r.reverse, by simp⟩

end Verif.Js
