import Verif.Spec.Module
import Verif.Spec.Docs
import Verif.Basic.Str

/-!
# Reading modules piece by piece (proof helper)
-/

namespace Verif.Js
open Verif

theorem lexEnd_acc (a acc : List Tok) (m : Mode) :
    lexEnd ⟨a ++ acc, m⟩ = (lexEnd ⟨a, m⟩).map (acc.reverse ++ ·) := by
  cases m with
  | word w =>
    simp only [lexEnd]
    cases wordTok w.reverse <;> simp
  | _ => simp [lexEnd]

/-- The tokens of a text after a complete text. -/
theorem lex_append {a s : Str} {ta : List Tok} (h : Lexes a ta) : lex (a ++ s) = (lex s).map (ta ++ ·) := by
  unfold lex
  have e := lexRun_acc [] ta.reverse .start s
  rw [List.nil_append] at e
  rw [lexRun_append, h [], List.append_nil, e, lexEnd_acc, List.reverse_reverse]

theorem pushToks_acc (Y X : List FTok) (nl : Bool) (ts : List Tok) : pushToks (Y ++ X) nl ts = pushToks Y nl ts ++ X := by
  induction ts with
  | nil => rfl
  | cons t r ih =>
    cases r with
    | nil => rfl
    | cons u r => show (t, false) :: pushToks (Y ++ X) nl (u :: r) = _; rw [ih]; rfl

theorem xStep_acc (Y X : List FTok) (nl : Bool) (m : XMode) (c : Char) :
    xStep ⟨Y ++ X, nl, m⟩ c = ⟨(xStep ⟨Y, nl, m⟩ c).toks ++ X, (xStep ⟨Y, nl, m⟩ c).nl, (xStep ⟨Y, nl, m⟩ c).mode⟩ := by
  cases m with
  | code m => simp only [xStep, codeStep, pushToks_acc]
  | slash => simp only [xStep]; by_cases h1 : c = '/' <;> by_cases h2 : c = '*' <;> simp [h1, h2]
  | line => simp only [xStep]; split <;> rfl
  | block => rfl
  | star => rfl
  | bad => rfl

theorem xRun_acc (Y X : List FTok) (nl : Bool) (m : XMode) (s : Str) :
    xRun ⟨Y ++ X, nl, m⟩ s = ⟨(xRun ⟨Y, nl, m⟩ s).toks ++ X, (xRun ⟨Y, nl, m⟩ s).nl, (xRun ⟨Y, nl, m⟩ s).mode⟩ := by
  induction s generalizing Y nl m with
  | nil => rfl
  | cons c r ih => rw [xRun_cons, xStep_acc, ih]; rfl

/-- The state after reading a text between tokens. -/
def xAfter (nl : Bool) (s : Str) : XState := xRun ⟨[], nl, .code .start⟩ s

theorem xRun_after (X : List FTok) (nl : Bool) (s : Str) :
    xRun ⟨X, nl, .code .start⟩ s = ⟨(xAfter nl s).toks ++ X, (xAfter nl s).nl, (xAfter nl s).mode⟩ := by
  have := xRun_acc [] X nl (.code .start) s
  rwa [List.nil_append] at this

/-- A name, completed by a text that does not start with a word character. -/
theorem xRun_ident {w b : Str} (h : isIdent w = true) (hne : ∃ c r, b = c :: r ∧ isWordChar c = false) (X : List FTok)
    (nl : Bool) : xRun ⟨X, nl, .code .start⟩ (w ++ b) = xRun ⟨(.ident w, nl) :: X, false, .code .start⟩ b := by
  have hword : ∀ (r : Str) (v : Str), r.all isWordChar = true →
      xRun ⟨X, nl, .code (.word v)⟩ r = ⟨X, nl, .code (.word (r.reverse ++ v))⟩ := by
    intro r
    induction r with
    | nil => intro v _; rfl
    | cons c r ih =>
      intro v hr
      simp only [List.all_cons, Bool.and_eq_true] at hr
      have hns : isNewline c = false := by
        cases hb : isNewline c with
        | false => rfl
        | true =>
          simp [isNewline] at hb
          rcases hb with rfl | rfl <;> exact absurd hr.1 (by decide)
      have hsl : (c = '/') = False := by
        simp only [eq_iff_iff, iff_false]
        rintro rfl
        exact absurd hr.1 (by decide)
      have : xStep ⟨X, nl, .code (.word v)⟩ c = ⟨X, nl, .code (.word (c :: v))⟩ := by
        simp [xStep, codeStep, hsl, lexStep, hr.1, pushToks, hns]
      rw [xRun_cons, this, ih _ hr.2]
      simp
  cases w with
  | nil => simp [isIdent] at h
  | cons c r =>
    simp only [isIdent, Bool.and_eq_true] at h
    have hns : isNewline c = false := by
      cases hb : isNewline c with
      | false => rfl
      | true =>
        simp [isNewline] at hb
        rcases hb with rfl | rfl <;> exact absurd h.1.1 (by decide)
    have hsl : (c = '/') = False := by
      simp only [eq_iff_iff, iff_false]
      rintro rfl
      exact absurd h.1.1 (by decide)
    have h1 : xStep ⟨X, nl, .code .start⟩ c = ⟨X, nl, .code (.word [c])⟩ := by
      simp [xStep, codeStep, hsl, lexStep, startStep, h.1.1, pushToks, hns]
    obtain ⟨d, b, rfl, hd⟩ := hne
    rw [List.cons_append, xRun_cons, h1, xRun_append, hword r _ h.2, xRun_cons, xRun_cons]
    congr 1
    have ht : wordTok (r.reverse ++ [c]).reverse = some (.ident (c :: r)) := by
      have : isDigit c = false := by simpa using h.1.2
      simp [wordTok, this]
    have hn : ∀ n, Tok.ident (c :: r) ≠ .num n := by intro n; simp
    have key : ∀ x : Char, isWordChar x = false →
        lexStep ⟨[], .word (r.reverse ++ [c])⟩ x = ⟨(lexStep ⟨[], .start⟩ x).acc ++ [.ident (c :: r)], (lexStep ⟨[], .start⟩ x).mode⟩ := by
      intro x hx
      rw [startStep_word hx ht hn]
      exact lexStep_acc [] [.ident (c :: r)] .start x
    have hp : ∀ a : List Tok, pushToks X nl (a ++ [.ident (c :: r)]) = pushToks ((.ident (c :: r), nl) :: X) false a := by
      intro a
      induction a with
      | nil => rfl
      | cons t a ih =>
        cases a with
        | nil => rfl
        | cons u a =>
          show (t, false) :: pushToks X nl (u :: (a ++ _)) = (t, false) :: pushToks _ false (u :: a)
          rw [← ih]; rfl
    by_cases hd' : d = '/'
    · subst hd'
      have e := key ' ' rfl
      simp [xStep, codeStep, Mode.slashIsComment, e, hp]
    · have e := key d hd
      simp [xStep, codeStep, Mode.slashIsComment, hd', e, hp]

/-- A block comment. -/
theorem xRun_block (X : List FTok) (nl : Bool) (body : Str) :
    (¬ lit "*/" <:+: body ++ lit "*" →
      ∃ nl', xRun ⟨X, nl, .block⟩ (body ++ lit "*/") = ⟨X, nl', .code .start⟩) ∧
    (¬ lit "*/" <:+: '*' :: (body ++ lit "*") →
      ∃ nl', xRun ⟨X, nl, .star⟩ (body ++ lit "*/") = ⟨X, nl', .code .start⟩) := by
  induction body generalizing nl with
  | nil =>
    refine ⟨fun _ => ⟨_, rfl⟩, fun _ => ⟨_, rfl⟩⟩
  | cons c r ih =>
    refine ⟨fun h => ?_, fun h => ?_⟩
    · rw [List.cons_append, xRun_cons]
      simp only [xStep]
      by_cases hc : c = '*'
      · subst hc
        exact (ih _).2 h
      · rw [if_neg hc]
        exact (ih _).1 (fun h' => h (List.infix_cons h'))
    · rw [List.cons_append, xRun_cons]
      simp only [xStep]
      have h0 : ¬ lit "*/" <:+: c :: (r ++ lit "*") := fun h' => h (List.infix_cons h')
      by_cases hc : c = '/'
      · subst hc
        exact absurd (List.IsPrefix.isInfix ⟨r ++ lit "*", rfl⟩) h
      · rw [if_neg hc]
        by_cases hs : c = '*'
        · subst hs
          exact (ih _).2 h0
        · rw [if_neg hs]
          exact (ih _).1 (fun h' => h0 (List.infix_cons h'))

theorem xRun_comment {text : Str} (h : DocsSpec.OneComment text) (X : List FTok) (nl : Bool) :
    xRun ⟨X, nl, .code .start⟩ text = ⟨X, true, .code .start⟩ := by
  obtain ⟨body, rfl, h⟩ := h
  rw [List.append_assoc (lit "/*"), List.append_assoc (lit "/*"), xRun_append]
  have : xRun ⟨X, nl, .code .start⟩ (lit "/*") = ⟨X, nl, .block⟩ := by cases nl <;> rfl
  rw [this, xRun_append]
  obtain ⟨nl', h⟩ := (xRun_block X nl body).1 h
  rw [h]
  cases nl' <;> rfl

end Verif.Js

namespace Verif.Ts
open Verif Verif.Js Verif.Spec

/-- What is known about line breaks. -/
def Knows (n : Option Bool) (nl : Bool) : Prop := ∀ b, n = some b → nl = b

/-- Reading the text takes the module reader from one state to another. `n` and `n'` is what is known about line
breaks since the last token, before and after. -/
def MTrans (s : Str) (n : Option Bool) (A : MState) (n' : Option Bool) (B : MState) : Prop :=
  ∀ X nl, Knows n nl → ∃ fs nl', xRun ⟨X, nl, .code .start⟩ s = ⟨fs.reverse ++ X, nl', .code .start⟩ ∧
    mRun A fs = some B ∧ Knows n' nl'

theorem mRun_append {A B : MState} {a b : List FTok} (h : mRun A a = some B) : mRun A (a ++ b) = mRun B b := by
  induction a generalizing A with
  | nil => injection h with h; subst h; rfl
  | cons t r ih =>
    rw [List.cons_append, mRun]
    rw [mRun] at h
    cases hs : mStep A t.1 t.2 with
    | some x => rw [hs] at h; exact ih h
    | none => rw [hs] at h; cases h

theorem MTrans.append {a b : Str} {n m n' : Option Bool} {A B C : MState} (h1 : MTrans a n A m B) (h2 : MTrans b m B n' C) :
    MTrans (a ++ b) n A n' C := by
  intro X nl hn
  obtain ⟨fs, nl1, e1, r1, k1⟩ := h1 X nl hn
  obtain ⟨gs, nl2, e2, r2, k2⟩ := h2 (fs.reverse ++ X) nl1 k1
  refine ⟨fs ++ gs, nl2, ?_, by rw [mRun_append r1, r2], k2⟩
  rw [xRun_append, e1, e2, List.reverse_append, List.append_assoc]

theorem MTrans.nil (n : Option Bool) (A : MState) : MTrans [] n A n A := fun _ nl hn => ⟨[], nl, rfl, rfl, hn⟩

theorem knows_none (nl : Bool) : Knows none nl := fun _ h => by cases h

theorem MTrans.forget {s : Str} {n n' : Option Bool} {A B : MState} (h : MTrans s n A n' B) : MTrans s n A none B := by
  intro X nl hn
  obtain ⟨fs, nl', e, r, _⟩ := h X nl hn
  exact ⟨fs, nl', e, r, knows_none _⟩

theorem MTrans.any {s : Str} {n : Option Bool} {n' : Option Bool} {A B : MState} (h : MTrans s none A n' B) :
    MTrans s n A n' B := fun X nl _ => h X nl (knows_none nl)

/-- A constant text, starting wherever. -/
theorem MTrans.const {s : Str} {A B : MState} {n' : Option Bool}
    (h : ∀ nl, (xAfter nl s).mode = .code .start ∧ mRun A (xAfter nl s).toks.reverse = some B ∧ Knows n' (xAfter nl s).nl) :
    MTrans s none A n' B := by
  intro X nl _
  refine ⟨(xAfter nl s).toks.reverse, (xAfter nl s).nl, ?_, (h nl).2.1, (h nl).2.2⟩
  rw [xRun_after, List.reverse_reverse, (h nl).1]

/-- A constant text, where the line breaks before it are known. -/
theorem MTrans.constAt {s : Str} {A B : MState} {n n' : Option Bool} (b : Bool) (hn : n = some b)
    (h : (xAfter b s).mode = .code .start ∧ mRun A (xAfter b s).toks.reverse = some B ∧ Knows n' (xAfter b s).nl) :
    MTrans s n A n' B := by
  intro X nl hk
  have := hk b hn
  subst this
  refine ⟨(xAfter nl s).toks.reverse, (xAfter nl s).nl, ?_, h.2.1, h.2.2⟩
  rw [xRun_after, List.reverse_reverse, h.1]

/-- A name. -/
theorem MTrans.ident {w b : Str} {n n' : Option Bool} {A B C : MState} (h : isIdent w = true)
    (hs : ∀ nl, Knows n nl → mStep A (.ident w) nl = some B) (hb : MTrans b (some false) B n' C)
    (hne : ∃ c r, b = c :: r ∧ isWordChar c = false) : MTrans (w ++ b) n A n' C := by
  intro X nl hn
  obtain ⟨fs, nl', e, r, k⟩ := hb ((.ident w, nl) :: X) false (fun b h => by injection h)
  refine ⟨(.ident w, nl) :: fs, nl', ?_, ?_, k⟩
  · rw [xRun_ident h hne, e]; simp
  · rw [mRun]; simp only [hs nl hn]; exact r

/-- Text without comments. -/
theorem MTrans.lexes {s : Str} {ts : List Tok} {n : Option Bool} {A B : MState} (h : Lexes s ts)
    (hs : ∀ fs : List FTok, fs.map (·.1) = ts → mRun A fs = some B) : MTrans s n A none B := by
  intro X nl _
  obtain ⟨fs, nl', e, k, _⟩ := h.sources X nl
  exact ⟨fs, nl', e, hs fs k, knows_none _⟩

/-- A comment. -/
theorem MTrans.comment {s : Str} {n : Option Bool} {A : MState} (h : DocsSpec.OneComment s) :
    MTrans s n A (some true) A :=
  fun X nl _ => ⟨[], true, xRun_comment h X nl, rfl, fun _ h => by injection h⟩

/-! ## Embedded expressions and types -/

/-- While the expression reader goes on, so does the module reader. -/
theorem mRun_expr {E : PState → MState} (hE : ∀ e t nl e', pStep e t = some e' → mStep (E e) t nl = some (E e'))
    {e e' : PState} {fs : List FTok} (h : pRun e (fs.map (·.1)) = some e') : mRun (E e) fs = some (E e') := by
  induction fs generalizing e with
  | nil => injection h with h; subst h; rfl
  | cons f r ih =>
    rw [List.map_cons, pRun] at h
    cases hs : pStep e f.1 with
    | none => rw [hs] at h; cases h
    | some x =>
      rw [hs] at h
      rw [mRun, hE e f.1 f.2 x hs]
      exact ih h

theorem mRun_type {E : TState → MState} (hE : ∀ e t nl e', tStep e t = some e' → mStep (E e) t nl = some (E e'))
    {e e' : TState} {fs : List FTok} (h : tRun e (fs.map (·.1)) = some e') : mRun (E e) fs = some (E e') := by
  induction fs generalizing e with
  | nil => injection h with h; subst h; rfl
  | cons f r ih =>
    rw [List.map_cons, tRun] at h
    cases hs : tStep e f.1 with
    | none => rw [hs] at h; cases h
    | some x =>
      rw [hs] at h
      rw [mRun, hE e f.1 f.2 x hs]
      exact ih h

/-- An expression. -/
theorem MTrans.expr {E : PState → MState} (hE : ∀ e t nl e', pStep e t = some e' → mStep (E e) t nl = some (E e'))
    {s : Str} {A B : PState} (h : Trans s A B) {n : Option Bool} : MTrans s n (E A) none (E B) := by
  obtain ⟨ts, hl, hr⟩ := h
  exact MTrans.lexes hl (fun fs hfs => mRun_expr hE (by rw [hfs]; exact hr))

/-- Part of a type. -/
theorem MTrans.ttrans {E : TState → MState} (hE : ∀ e t nl e', tStep e t = some e' → mStep (E e) t nl = some (E e'))
    {s : Str} {A B : TState} (h : TTrans s A B) {n : Option Bool} : MTrans s n (E A) none (E B) := by
  obtain ⟨ts, hl, hr⟩ := h
  exact MTrans.lexes hl (fun fs hfs => mRun_type hE (by rw [hfs]; exact hr))

theorem typeDone_ends {c : TCur} {d : Dnf} (h : TEnds c d) : typeDone ([], c) = some (ofDnf d) := by
  rcases h with rfl | ⟨o, p, rfl, he⟩
  · rfl
  · simp [typeDone, he]

/-- A complete type with a constant text after it. -/
theorem MTrans.type {E : TState → MState} (hE : ∀ e t nl e', tStep e t = some e' → mStep (E e) t nl = some (E e'))
    {s b : Str} {d : Dnf} (h : Den s d) (hb : (lexRun ⟨[], .start⟩ b).mode = .start)
    (hne : ∃ c r, b = c :: r ∧ isWordChar c = false) {B : MState}
    (hB : ∀ (c : TCur) (fs : List FTok), TEnds c d → fs.map (·.1) = toks b → mRun (E ([], c)) fs = some B) {n : Option Bool} :
    MTrans (s ++ b) n (E ([], .need .none)) none B := by
  obtain ⟨hd, ts, hl, h⟩ := h
  obtain ⟨c', h, he⟩ := h [] (.need .none) .none (Or.inl rfl)
  rw [cont_none hd] at he
  refine MTrans.lexes (hl.append (lexes_toks hb) hne) (fun fs hfs => ?_)
  obtain ⟨f1, f2, rfl, h1, h2⟩ := List.map_eq_append_iff.1 hfs
  rw [mRun_append (mRun_type hE (by rw [h1]; exact h))]
  exact hB c' f2 he h2

end Verif.Ts
