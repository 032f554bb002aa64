import Verif.Js.LexSound
import Verif.Js.Source

/-!
# What is read as a source text is one

The tokens `source` finds are those of the lexical grammar with comments, and its marks say where line breaks are.
-/

namespace Verif.Js
open Verif

/-- Only the first of these tokens has the line break before it. -/
def markFirst (nl : Bool) : List Tok → List FTok
  | [] => []
  | t :: r => (t, nl) :: r.map (fun t => (t, false))

theorem pushToks_mark (X : List FTok) (nl : Bool) (ts : List Tok) : (pushToks X nl ts).reverse = X.reverse ++ markFirst nl ts.reverse := by
  induction ts with
  | nil => simp [pushToks, markFirst]
  | cons t r ih =>
    cases r with
    | nil => simp [pushToks, markFirst]
    | cons u r =>
      show ((t, false) :: pushToks X nl (u :: r)).reverse = _
      rw [List.reverse_cons, ih, List.reverse_cons (a := t), List.append_assoc]
      congr 1
      generalize h : (u :: r).reverse = l
      cases l with
      | nil => simp at h
      | cons x l => simp [markFirst]

/-- After the tokens that have been completed, is there a line break before what follows? -/
def after (acc : List Tok) (nl : Bool) (c : Char) : Bool := (if acc.isEmpty then nl else false) || isNewline c

theorem start_marked {c : Char} {r : Str} {nl : Bool} {fts : List FTok} {s : LState} (hs : startStep [] c = s)
    (hm : s.mode ≠ .bad) (h : SpellsMarked (after s.acc nl c) (s.mode.text ++ r) fts) :
    s.mode.ok ∧ SpellsMarked nl (c :: r) (markFirst nl s.acc.reverse ++ fts) := by
  unfold startStep at hs
  split at hs
  · rename_i hc
    subst hs
    have hn : isNewline c = false := by
      cases hn : isNewline c with
      | false => rfl
      | true =>
        simp only [isNewline, Bool.or_eq_true, decide_eq_true_eq] at hn
        rcases hn with rfl | rfl <;> cases hc
    refine ⟨⟨by simp, by simpa using hc⟩, ?_⟩
    simpa [after, hn, markFirst, Mode.text] using h
  · split at hs
    · rename_i hc
      subst hs hc
      exact ⟨by simp [Mode.ok], by simpa [after, isNewline, markFirst, Mode.text] using h⟩
    · split at hs
      · rename_i hc
        subst hs hc
        exact ⟨trivial, by simpa [after, isNewline, markFirst, Mode.text] using h⟩
      · split at hs
        · rename_i hc
          subst hs
          refine ⟨trivial, ?_⟩
          simp only [isSpace, Bool.or_eq_true, decide_eq_true_eq] at hc
          have h : SpellsMarked (nl || isNewline c) r fts := by simpa [after, Mode.text] using h
          show SpellsMarked nl (c :: r) fts
          rcases hc with ((rfl | rfl) | rfl) | rfl
          · exact .space (by simp) (by simpa [isNewline] using h)
          · exact .newline (by simp) (by simpa [isNewline] using h)
          · exact .space (by simp) (by simpa [isNewline] using h)
          · exact .newline (by simp) (by simpa [isNewline] using h)
        · split at hs
          · rename_i hc
            subst hs
            refine ⟨trivial, ?_⟩
            have hc : c ∈ ['.', ',', ':', '(', ')', '[', ']', '{', '}', '-', '?', '|', '&', '<', '>', ';', '!', '+', '*'] := by
              simpa [isPunct] using hc
            have hn : isNewline c = false := by
              simp only [List.mem_cons, List.not_mem_nil, or_false] at hc
              rcases hc with rfl | rfl | rfl | rfl | rfl | rfl | rfl | rfl | rfl | rfl | rfl | rfl | rfl | rfl | rfl | rfl | rfl | rfl | rfl <;> rfl
            have h : SpellsMarked false r fts := by simpa [after, Mode.text, hn] using h
            exact .token (w := [c]) (.punct hc) h
          · subst hs
            exact absurd rfl hm

/-- A pending word is completed by a character that does not continue it. -/
theorem word_marked {w : Str} {r : Str} {nl : Bool} {fts : List FTok} {t : Tok} (ok : (Mode.word w).ok) (ht : wordTok w.reverse = some t)
    (hr : NotNext (fun x => isWordChar x = true) r) (hn : ∀ n, t = .num n → NotNext (· = '.') r) (h : SpellsMarked false r fts) :
    SpellsMarked nl ((Mode.word w).text ++ r) ((t, nl) :: fts) :=
  .token (lexeme_word (by simpa [Mode.text] using ok.1) (by simpa [Mode.text] using ok.2) ht hr hn) h

theorem startStep_acc (acc : List Tok) (c : Char) :
    startStep acc c = ⟨(startStep [] c).acc ++ acc, (startStep [] c).mode⟩ := by
  unfold startStep
  split
  · rfl
  · split
    · rfl
    · split
      · rfl
      · split
        · rfl
        · split <;> rfl

theorem startStep_acc_one (c : Char) : ∀ t ∈ (startStep [] c).acc, (startStep [] c).acc = [t] := by
  unfold startStep
  intro t ht
  split at ht
  · cases ht
  · split at ht
    · cases ht
    · split at ht
      · cases ht
      · split at ht
        · cases ht
        · split at ht
          · simp_all
          · cases ht

theorem after_false {acc : List Tok} {nl : Bool} {c : Char} (h : acc ≠ []) : after acc nl c = isNewline c := by
  cases acc with
  | nil => exact absurd rfl h
  | cons => simp [after]

/-- After a completed token, the character starts something. -/
theorem next_marked {c : Char} {r : Str} {nl : Bool} {fts : List FTok} {t : Tok} {s : LState} (hs : startStep [t] c = s)
    (hm : s.mode ≠ .bad) (h : SpellsMarked (after s.acc nl c) (s.mode.text ++ r) fts) :
    s.mode.ok ∧ ∃ fts', markFirst nl s.acc.reverse ++ fts = (t, nl) :: fts' ∧ SpellsMarked false (c :: r) fts' := by
  rw [startStep_acc] at hs
  subst hs
  simp only at h hm ⊢
  have h' : SpellsMarked (after (startStep [] c).acc false c) ((startStep [] c).mode.text ++ r) fts := by
    rw [after_false (by simp)] at h
    cases ha : (startStep [] c).acc with
    | nil => simpa [after] using h
    | cons x l => rw [after_false (by simp)]; exact h
  obtain ⟨h1, h2⟩ := start_marked (nl := false) rfl hm h'
  refine ⟨h1, _, ?_, h2⟩
  cases ha : (startStep [] c).acc with
  | nil => simp [markFirst]
  | cons x l =>
    have := startStep_acc_one c x (by rw [ha]; simp)
    rw [ha] at this
    injection this with _ this
    subst this
    simp [markFirst]

/-- One character of code. -/
theorem code_marked {m : Mode} {c : Char} {r : Str} {nl : Bool} {fts : List FTok} {s : LState} (ok : m.ok)
    (hs : lexStep ⟨[], m⟩ c = s) (hm : s.mode ≠ .bad)
    (h : SpellsMarked (after s.acc nl c) (s.mode.text ++ r) fts) :
    s.mode.ok ∧ SpellsMarked nl (m.text ++ c :: r) (markFirst nl s.acc.reverse ++ fts) := by
  cases m with
  | bad => exact ok.elim
  | start => exact start_marked hs hm h
  | eq =>
    simp only [lexStep] at hs
    split at hs
    · rename_i hc
      subst hs hc
      refine ⟨trivial, ?_⟩
      have h : SpellsMarked false r fts := by simpa [after, Mode.text, isNewline] using h
      exact .token (w := ['=', '>']) .arrow h
    · rename_i hc
      obtain ⟨h1, fts', e, h2⟩ := next_marked hs hm h
      rw [e]
      exact ⟨h1, .token (w := ['=']) (.equals hc) h2⟩
  | str w =>
    simp only [lexStep] at hs
    split at hs
    · rename_i hc
      subst hs hc
      refine ⟨trivial, ?_⟩
      have h : SpellsMarked false r fts := by simpa [after, Mode.text, isNewline] using h
      have := SpellsMarked.token (nl := nl) (.string (w := w.reverse) (fun x hx => ok x (List.mem_reverse.1 hx))) h
      simpa [Mode.text, markFirst] using this
    · rename_i hc
      split at hs
      · subst hs
        exact absurd rfl hm
      · rename_i hc'
        subst hs
        simp at hc'
        have hn : isNewline c = false := by simp [isNewline, hc']
        refine ⟨?_, ?_⟩
        · intro x hx
          rcases List.mem_cons.1 hx with rfl | hx
          · simp [hc, hc']
          · exact ok x hx
        · simpa [after, Mode.text, hn, markFirst] using h
  | word w =>
    simp only [lexStep] at hs
    cases hc : isWordChar c with
    | true =>
      rw [hc, if_pos rfl] at hs
      subst hs
      have hn : isNewline c = false := by
        cases hn : isNewline c with
        | false => rfl
        | true =>
          simp only [isNewline, Bool.or_eq_true, decide_eq_true_eq] at hn
          rcases hn with rfl | rfl <;> cases hc
      refine ⟨⟨by simp, ?_⟩, ?_⟩
      · intro x hx
        rcases List.mem_cons.1 hx with rfl | hx
        · exact hc
        · exact ok.2 x hx
      · simpa [after, Mode.text, hn, markFirst] using h
    | false =>
      rw [hc, if_neg (by simp)] at hs
      cases ht : wordTok w.reverse with
      | none => rw [ht] at hs; subst hs; exact absurd rfl hm
      | some t =>
        rw [ht] at hs
        have key : (∀ n, t = .num n → c ≠ '.') ∧ startStep [t] c = s := by
          cases t with
          | num n =>
            simp only at hs
            split at hs
            · subst hs; exact absurd rfl hm
            · rename_i hd
              exact ⟨fun _ _ => hd, hs⟩
          | ident => exact ⟨fun _ h => (by cases h), hs⟩
          | str => exact ⟨fun _ h => (by cases h), hs⟩
          | p => exact ⟨fun _ h => (by cases h), hs⟩
          | arrow => exact ⟨fun _ h => (by cases h), hs⟩
        obtain ⟨h1, fts', e, h2⟩ := next_marked key.2 hm h
        rw [e]
        exact ⟨h1, word_marked ok ht (by simp [NotNext, hc]) key.1 h2⟩

/-- A slash that starts a comment completes the token before it. -/
theorem slash_marked {m : Mode} {r : Str} {nl : Bool} {fts : List FTok} (ok : m.ok) (hc : m.slashIsComment = true)
    (hm : (lexStep ⟨[], m⟩ ' ').mode = .start)
    (h : SpellsMarked (after (lexStep ⟨[], m⟩ ' ').acc nl '/') ('/' :: r) fts) :
    SpellsMarked nl (m.text ++ '/' :: r) (markFirst nl (lexStep ⟨[], m⟩ ' ').acc.reverse ++ fts) := by
  cases m with
  | bad => exact ok.elim
  | str w => cases hc
  | start => simpa [lexStep, startStep, show isWordChar ' ' = false from rfl, isSpace, after, isNewline, markFirst, Mode.text] using h
  | eq =>
    have h : SpellsMarked false ('/' :: r) fts := h
    exact .token (w := ['=']) (.equals (by simp [NotNext])) h
  | word w =>
    cases ht : wordTok w.reverse with
    | none => simp [lexStep, show isWordChar ' ' = false from rfl, ht] at hm
    | some t =>
      have key : lexStep ⟨[], .word w⟩ ' ' = ⟨[t], .start⟩ := by
        simp only [lexStep, show isWordChar ' ' = false from rfl, ht]
        cases t <;> rfl
      rw [key] at h ⊢
      have h : SpellsMarked false ('/' :: r) fts := h
      exact word_marked ok ht (by simp [NotNext, show isWordChar '/' = false from rfl]) (fun _ _ => by simp [NotNext]) h

theorem startStep_ok {acc : List Tok} {c : Char} (h : (startStep acc c).mode ≠ .bad) : (startStep acc c).mode.ok := by
  unfold startStep at h ⊢
  by_cases h1 : isWordChar c = true
  · rw [if_pos h1]
    exact ⟨by simp, by simpa using h1⟩
  · rw [if_neg h1] at h ⊢
    split
    · simp [Mode.ok]
    · rename_i h2
      rw [if_neg h2] at h
      split
      · trivial
      · rename_i h3
        rw [if_neg h3] at h
        split
        · trivial
        · rename_i h4
          rw [if_neg h4] at h
          split
          · trivial
          · rename_i h5
            rw [if_neg h5] at h
            exact absurd rfl h

theorem lexStep_ok {acc : List Tok} {m : Mode} {c : Char} (ok : m.ok) (h : (lexStep ⟨acc, m⟩ c).mode ≠ .bad) : (lexStep ⟨acc, m⟩ c).mode.ok := by
  cases m with
  | bad => exact ok.elim
  | start => exact startStep_ok h
  | eq =>
    simp only [lexStep] at h ⊢
    split
    · trivial
    · rename_i hc
      rw [if_neg hc] at h
      exact startStep_ok h
  | str w =>
    simp only [lexStep] at h ⊢
    split
    · trivial
    · rename_i hc
      rw [if_neg hc] at h
      split
      · rename_i hc'
        rw [if_pos hc'] at h
        exact absurd rfl h
      · rename_i hc'
        simp at hc'
        intro x hx
        rcases List.mem_cons.1 hx with rfl | hx
        · simp [hc, hc']
        · exact ok x hx
  | word w =>
    simp only [lexStep] at h ⊢
    cases hc : isWordChar c with
    | true =>
      refine ⟨by simp, fun x hx => ?_⟩
      rcases List.mem_cons.1 hx with rfl | hx
      · exact hc
      · exact ok.2 x hx
    | false =>
      simp only [hc, Bool.false_eq_true, if_false] at h ⊢
      cases ht : wordTok w.reverse with
      | none => rw [ht] at h; exact absurd rfl h
      | some t =>
        rw [ht] at h
        cases t with
        | num n =>
          simp only at h ⊢
          split
          · rename_i hd
            rw [if_pos hd] at h
            exact absurd rfl h
          · rename_i hd
            rw [if_neg hd] at h
            exact startStep_ok h
        | ident => exact startStep_ok h
        | str => exact startStep_ok h
        | p => exact startStep_ok h
        | arrow => exact startStep_ok h

/-- The text does not contain the end of a comment. -/
def Unended (w : Str) : Prop := ∀ a b, w ≠ a ++ '*' :: '/' :: b

theorem unended_snoc {w : Str} {c : Char} (h : Unended w) (hc : (∃ v, w = v ++ ['*']) → c ≠ '/') : Unended (w ++ [c]) := by
  intro a b e
  rcases List.eq_nil_or_concat b with rfl | ⟨b', d, rfl⟩
  · have e : w ++ [c] = (a ++ ['*']) ++ ['/'] := by simpa using e
    obtain ⟨e1, e2⟩ := List.append_inj' e rfl
    injection e2 with e2
    exact hc ⟨a, e1⟩ e2
  · have e : w ++ [c] = (a ++ '*' :: '/' :: b') ++ [d] := by simpa using e
    exact h a b' (List.append_inj' e rfl).1

/-- What the rest of a text is, when reading it from this state succeeds. -/
def Continues (out : List FTok) (s : XState) (cs : Str) : Prop :=
  match s.mode with
  | .code m => m ≠ .bad ∧ (m.ok → ∃ fts, out = s.toks.reverse ++ fts ∧ SpellsMarked s.nl (m.text ++ cs) fts)
  | .slash => ∃ fts, out = s.toks.reverse ++ fts ∧ SpellsMarked s.nl ('/' :: cs) fts
  | .line => ∃ fts, out = s.toks.reverse ++ fts ∧
      ∀ w : Str, (∀ x ∈ w, x ∉ ['\n', '\r']) → SpellsMarked s.nl ('/' :: '/' :: w ++ cs) fts
  | .block => ∃ fts, out = s.toks.reverse ++ fts ∧
      ∀ nl (w : Str), s.nl = (nl || w.any (fun x => x = '\n' || x = '\r')) → Unended w → (¬ ∃ v, w = v ++ ['*']) →
        SpellsMarked nl ('/' :: '*' :: w ++ cs) fts
  | .star => ∃ fts, out = s.toks.reverse ++ fts ∧
      ∀ nl (w : Str), s.nl = (nl || w.any (fun x => x = '\n' || x = '\r')) → Unended (w ++ ['*']) →
        SpellsMarked nl ('/' :: '*' :: w ++ '*' :: cs) fts
  | .bad => False

theorem xRun_sound (out : List FTok) (cs : Str) : ∀ s : XState, (xRun s cs).mode = .code .start →
    (xRun s cs).toks.reverse = out → Continues out s cs := by
  induction cs with
  | nil =>
    rintro ⟨X, nl, m⟩ hm ho
    have hm : m = .code .start := hm
    subst hm
    exact ⟨by simp, fun _ => ⟨[], by simpa [xRun] using ho.symm, .nil⟩⟩
  | cons c r ih =>
    rintro ⟨X, nl, m⟩ hm ho
    rw [xRun_cons] at hm ho
    have h := ih _ hm ho
    clear ih hm ho
    cases m with
    | bad => exact h
    | slash =>
      by_cases h1 : c = '/'
      · subst h1
        simp only [xStep, if_true, Continues] at h
        obtain ⟨fts, e, h⟩ := h
        exact ⟨fts, e, h [] (by simp)⟩
      · by_cases h2 : c = '*'
        · subst h2
          simp only [xStep, h1, if_true, if_false, Continues] at h
          obtain ⟨fts, e, h⟩ := h
          exact ⟨fts, e, h nl [] (by simp) (by intro a b; simp) (by simp)⟩
        · simp only [xStep, h1, h2, if_false, Continues] at h
    | line =>
      cases hn : isNewline c with
      | true =>
        simp only [xStep, hn, if_true, Continues] at h
        obtain ⟨fts, e, h⟩ := h.2 trivial
        have hn : c ∈ ['\n', '\r'] := by simpa [isNewline] using hn
        refine ⟨fts, e, fun w hw => .line hw (fun hx => hx hn) (.newline hn h)⟩
      | false =>
        simp only [xStep, hn, Bool.false_eq_true, if_false, Continues] at h
        obtain ⟨fts, e, h⟩ := h
        refine ⟨fts, e, fun w hw => ?_⟩
        have := h (w ++ [c]) (by
          intro x hx
          rcases List.mem_append.1 hx with hx | hx
          · exact hw x hx
          · simp only [List.mem_singleton] at hx
            subst hx
            simpa [isNewline] using hn)
        simpa using this
    | block =>
      by_cases hc : c = '*'
      · subst hc
        obtain ⟨fts, e, h⟩ := h
        exact ⟨fts, e, fun nl' w h1 h2 h3 => h nl' w (by rw [← h1]; simp [xStep, isNewline])
          (unended_snoc h2 (fun hv => absurd hv h3))⟩
      · simp only [xStep, hc, if_false, Continues] at h
        obtain ⟨fts, e, h⟩ := h
        refine ⟨fts, e, fun nl' w h1 h2 h3 => ?_⟩
        have h1 : nl = (nl' || w.any (fun x => x = '\n' || x = '\r')) := h1
        have := h nl' (w ++ [c]) (by rw [h1]; simp [isNewline, Bool.or_assoc]) (unended_snoc h2 (fun hv => absurd hv h3)) (by
          rintro ⟨v, e⟩
          have := (List.append_inj' e rfl).2
          injection this with this
          exact hc this)
        simpa using this
    | star =>
      by_cases hc : c = '/'
      · subst hc
        simp only [xStep, if_true, Continues] at h
        obtain ⟨fts, e, h⟩ := h.2 trivial
        refine ⟨fts, e, fun nl' w h1 h2 => ?_⟩
        have h1 : nl = (nl' || w.any (fun x => x = '\n' || x = '\r')) := h1
        exact .block h2 (by rw [← h1]; simpa [isNewline, Mode.text] using h)
      · by_cases hc' : c = '*'
        · subst hc'
          simp only [xStep, hc, if_true, if_false, Continues] at h
          obtain ⟨fts, e, h⟩ := h
          refine ⟨fts, e, fun nl' w h1 h2 => ?_⟩
          have := h nl' (w ++ ['*']) (by
            have h1 : nl = (nl' || w.any (fun x => x = '\n' || x = '\r')) := h1
            rw [h1]; simp [isNewline, Bool.or_assoc]) (unended_snoc h2 (fun _ => by decide))
          simpa using this
        · simp only [xStep, hc, hc', if_false, Continues] at h
          obtain ⟨fts, e, h⟩ := h
          refine ⟨fts, e, fun nl' w h1 h2 => ?_⟩
          have := h nl' (w ++ ['*', c]) (by
            have h1 : nl = (nl' || w.any (fun x => x = '\n' || x = '\r')) := h1
            rw [h1]; simp [isNewline, Bool.or_assoc]) (by
              have := unended_snoc h2 (c := c) (fun _ => hc)
              simpa using this) (by
              rintro ⟨v, e⟩
              have e : (w ++ ['*']) ++ [c] = v ++ ['*'] := by simpa using e
              have := (List.append_inj' e rfl).2
              injection this with this
              exact hc' this)
          simpa using this
    | code m =>
      by_cases hs : (c = '/' && m.slashIsComment) = true
      · simp only [Bool.and_eq_true, decide_eq_true_eq] at hs
        obtain ⟨rfl, hs⟩ := hs
        simp only [xStep, codeStep, hs, decide_true, Bool.and_self, if_true] at h
        refine ⟨(by intro e; rw [e] at hs; cases hs), fun ok => ?_⟩
        by_cases hm : (lexStep ⟨[], m⟩ ' ').mode = .start
        · rw [if_pos hm] at h
          obtain ⟨fts, e, h⟩ := h
          refine ⟨_, ?_, slash_marked ok hs hm h⟩
          rw [e]
          simp only
          rw [pushToks_mark, List.append_assoc]
        · rw [if_neg hm] at h
          exact h.elim
      · simp only [xStep, codeStep, hs, if_false, Bool.false_eq_true] at h
        have hb : (lexStep ⟨[], m⟩ c).mode ≠ .bad := h.1
        refine ⟨(by intro e; rw [e] at hb; exact hb rfl), fun ok => ?_⟩
        obtain ⟨fts, e, h⟩ := h.2 (lexStep_ok ok hb)
        refine ⟨_, ?_, (code_marked ok rfl hb h).2⟩
        rw [e]
        simp only
        rw [pushToks_mark, List.append_assoc]

/-! ## The line break that is added at the end -/

theorem lexeme_strip {w r : Str} {t : Tok} (h : Lexeme w t (r ++ ['\n'])) : Lexeme w t r := by
  have hn : ∀ p : Char → Prop, NotNext p (r ++ ['\n']) → NotNext p r := by
    intro p h
    cases r with
    | nil => trivial
    | cons => exact h
  cases h with
  | name h1 h2 h3 => exact .name h1 h2 (hn _ h3)
  | number h1 h2 h3 => exact .number h1 h2 (hn _ h3)
  | string h1 => exact .string h1
  | arrow => exact .arrow
  | equals h1 => exact .equals (hn _ h1)
  | punct h1 => exact .punct h1

theorem lexeme_line {w r : Str} {t : Tok} (h : Lexeme w t r) : '\n' ∉ w := by
  cases h with
  | name h1 h2 h3 => intro hx; have := h2 _ hx; cases this
  | number h1 h2 h3 => intro hx; have := h1 _ hx; cases this
  | @string w _ h1 =>
    intro hx
    simp only [List.cons_append, List.mem_cons, List.mem_append, List.not_mem_nil, or_false] at hx
    rcases hx with hx | hx | hx
    · cases hx
    · exact h1 _ hx (by simp)
    · cases hx
  | arrow => decide
  | equals h1 => decide
  | punct h1 => intro hx; simp only [List.mem_singleton] at hx; subst hx; revert h1; decide

theorem append_snoc {w r cs : Str} {c : Char} (h : w ++ r = cs ++ [c]) (hw : c ∉ w) : ∃ r', r = r' ++ [c] ∧ cs = w ++ r' := by
  rcases List.eq_nil_or_concat r with rfl | ⟨r', d, rfl⟩
  · rw [List.append_nil] at h
    exact absurd (by rw [h]; simp) hw
  · have h : (w ++ r') ++ [d] = cs ++ [c] := by simpa using h
    obtain ⟨h1, h2⟩ := List.append_inj' h rfl
    injection h2 with h2
    subst h2
    exact ⟨r', by simp, h1.symm⟩

theorem spellsMarked_strip {nl : Bool} {cs cs' : Str} {fts : List FTok} (h : SpellsMarked nl cs' fts) (e : cs' = cs ++ ['\n']) :
    SpellsMarked nl cs fts := by
  induction h generalizing cs with
  | nil => simp at e
  | @space nl c r ts hc _ ih =>
    obtain ⟨r', rfl, rfl⟩ := append_snoc (w := [c]) e (by simp at hc ⊢; rintro rfl; revert hc; decide)
    exact .space hc (ih rfl)
  | @newline nl c r ts hc h ih =>
    cases cs with
    | nil =>
      simp at e
      obtain ⟨rfl, rfl⟩ := e
      generalize hr : ([] : Str) = r at h
      cases h with
      | nil => exact .nil
      | token hl _ => cases hl <;> simp at hr
      | _ => simp at hr
    | cons d cs =>
      simp at e
      obtain ⟨rfl, rfl⟩ := e
      exact .newline hc (ih rfl)
  | @line nl w r ts hw hr _ ih =>
    obtain ⟨r', rfl, rfl⟩ := append_snoc (w := '/' :: '/' :: w) e (by
      intro hx
      simp only [List.mem_cons] at hx
      rcases hx with hx | hx | hx
      · cases hx
      · cases hx
      · exact hw _ hx (by simp))
    refine .line hw ?_ (ih rfl)
    cases r' with
    | nil => trivial
    | cons => exact hr
  | @block nl w r ts hw _ ih =>
    rcases List.eq_nil_or_concat r with rfl | ⟨r', d, rfl⟩
    · have e : ('/' :: '*' :: w ++ ['*']) ++ ['/'] = cs ++ ['\n'] := by simpa using e
      have := (List.append_inj' e rfl).2
      simp at this
    · have e : ('/' :: '*' :: w ++ '*' :: '/' :: r') ++ [d] = cs ++ ['\n'] := by simpa using e
      obtain ⟨h1, h2⟩ := List.append_inj' e rfl
      injection h2 with h2
      subst h1 h2
      exact .block hw (ih (by simp))
  | token hl _ ih =>
    obtain ⟨r', rfl, rfl⟩ := append_snoc e (lexeme_line hl)
    exact .token (lexeme_strip hl) (ih rfl)

/-! ## Every source text is read -/

theorem xRun_wordChars {w : Str} (hw : ∀ x ∈ w, isWordChar x = true) (X : List FTok) (nl : Bool) (v : Str) :
    xRun ⟨X, nl, .code (.word v)⟩ w = ⟨X, nl, .code (.word (w.reverse ++ v))⟩ := by
  induction w generalizing v with
  | nil => rfl
  | cons c w ih =>
    have hc := hw c List.mem_cons_self
    have hns : isNewline c = false := by
      cases hb : isNewline c with
      | false => rfl
      | true =>
        simp [isNewline] at hb
        rcases hb with rfl | rfl <;> cases hc
    have hsl : (c = '/') = False := by
      simp only [eq_iff_iff, iff_false]
      rintro rfl
      cases hc
    have : xStep ⟨X, nl, .code (.word v)⟩ c = ⟨X, nl, .code (.word (c :: v))⟩ := by
      simp [xStep, codeStep, hsl, lexStep, hc, pushToks, hns]
    rw [xRun_cons, this, ih (fun x hx => hw x (List.mem_cons_of_mem _ hx))]
    simp

theorem xRun_strChars {w : Str} (hw : ∀ x ∈ w, x ∉ ['"', '\\', '\n', '\r']) (X : List FTok) (nl : Bool) (v : Str) :
    xRun ⟨X, nl, .code (.str v)⟩ w = ⟨X, nl, .code (.str (w.reverse ++ v))⟩ := by
  induction w generalizing v with
  | nil => rfl
  | cons c w ih =>
    have hc := hw c List.mem_cons_self
    simp at hc
    have hns : isNewline c = false := by simp [isNewline, hc]
    have : xStep ⟨X, nl, .code (.str v)⟩ c = ⟨X, nl, .code (.str (c :: v))⟩ := by
      simp [xStep, codeStep, Mode.slashIsComment, lexStep, hc, pushToks, hns]
    rw [xRun_cons, this, ih (fun x hx => hw x (List.mem_cons_of_mem _ hx))]
    simp

theorem pushToks_snoc (X : List FTok) (nl : Bool) (t : Tok) (a : List Tok) :
    pushToks X nl (a ++ [t]) = pushToks ((t, nl) :: X) false a := by
  induction a with
  | nil => rfl
  | cons u a ih =>
    cases a with
    | nil => rfl
    | cons v a =>
      show (u, false) :: pushToks X nl (v :: (a ++ _)) = (u, false) :: pushToks _ false (v :: a)
      rw [← ih]; rfl

/-- A token that is completed by the next character. -/
theorem xStep_next {X : List FTok} {nl : Bool} {m : Mode} {t : Tok} {c : Char} (hm : m.slashIsComment = true)
    (h : lexStep ⟨[], m⟩ c = startStep [t] c) (h' : c = '/' → lexStep ⟨[], m⟩ ' ' = startStep [t] ' ') :
    xStep ⟨X, nl, .code m⟩ c = xStep ⟨(t, nl) :: X, false, .code .start⟩ c := by
  have key : ∀ d, lexStep ⟨[], m⟩ d = startStep [t] d → pushToks X nl (lexStep ⟨[], m⟩ d).acc = pushToks ((t, nl) :: X) false (lexStep ⟨[], .start⟩ d).acc ∧
      (lexStep ⟨[], m⟩ d).mode = (lexStep ⟨[], .start⟩ d).mode ∧ (lexStep ⟨[], m⟩ d).acc.isEmpty = false := by
    intro d hd
    rw [hd, startStep_acc]
    exact ⟨pushToks_snoc _ _ _ _, rfl, by simp⟩
  by_cases hc : c = '/'
  · subst hc
    obtain ⟨k1, k2, k3⟩ := key ' ' (h' rfl)
    simp [xStep, codeStep, hm, k1, k2, k3, show Mode.start.slashIsComment = true from rfl]
  · obtain ⟨k1, k2, k3⟩ := key c h
    simp [xStep, codeStep, hc, k1, k2, k3]

theorem xRun_word {w r : Str} {t : Tok} (hne : w ≠ []) (hw : ∀ x ∈ w, isWordChar x = true) (ht : wordTok w = some t)
    (hr : NotNext (fun x => isWordChar x = true) r) (hn : ∀ n, t = .num n → NotNext (· = '.') r) (hr' : r ≠ [])
    (X : List FTok) (nl : Bool) :
    xRun ⟨X, nl, .code .start⟩ (w ++ r) = xRun ⟨(t, nl) :: X, false, .code .start⟩ r := by
  cases w with
  | nil => exact absurd rfl hne
  | cons c w =>
    have hc := hw c List.mem_cons_self
    have hns : isNewline c = false := by
      cases hb : isNewline c with
      | false => rfl
      | true =>
        simp [isNewline] at hb
        rcases hb with rfl | rfl <;> cases hc
    have hsl : (c = '/') = False := by
      simp only [eq_iff_iff, iff_false]
      rintro rfl
      cases hc
    have h1 : xStep ⟨X, nl, .code .start⟩ c = ⟨X, nl, .code (.word [c])⟩ := by
      simp [xStep, codeStep, hsl, lexStep, startStep, hc, pushToks, hns]
    rw [List.cons_append, xRun_cons, h1, xRun_append, xRun_wordChars (fun x hx => hw x (List.mem_cons_of_mem _ hx))]
    cases r with
    | nil => exact absurd rfl hr'
    | cons x r =>
      have hx : isWordChar x = false := by simpa [NotNext] using hr
      have e : (w.reverse ++ [c]).reverse = c :: w := by simp
      rw [xRun_cons, xRun_cons]
      congr 1
      refine xStep_next rfl ?_ ?_
      · simp only [lexStep, hx, e, ht]
        cases t with
        | num n => simp [show x ≠ '.' from hn n rfl]
        | _ => rfl
      · intro _
        simp only [lexStep, show isWordChar ' ' = false from rfl, e, ht]
        cases t <;> rfl

theorem xRun_lexeme {w r : Str} {t : Tok} (h : Lexeme w t r) (hr' : r ≠ []) (X : List FTok) (nl : Bool) :
    xRun ⟨X, nl, .code .start⟩ (w ++ r) = xRun ⟨(t, nl) :: X, false, .code .start⟩ r := by
  cases h with
  | @name c w r hd hw hr => exact xRun_word (by simp) hw (by simp [wordTok, hd]) hr (fun _ h => by cases h) hr' X nl
  | @number c w r hd h0 hr =>
    refine xRun_word (by simp) (fun x hx => isDigit_word (hd x hx)) ?_ ?_ ?_ hr' X nl
    · have h1 := hd c List.mem_cons_self
      have h2 : w.all isDigit = true := List.all_eq_true.2 (fun x hx => hd x (List.mem_cons_of_mem _ hx))
      have h3 : (c != '0' || w.isEmpty) = true := by
        by_cases hc : c = '0'
        · simp [h0 hc]
        · simp [hc]
      simp only [wordTok, h1, h2, h3, Bool.and_self, if_true]
    · cases r with
      | nil => trivial
      | cons x r => exact fun h => hr (.inl h)
    · intro n _
      cases r with
      | nil => trivial
      | cons x r => exact fun h => hr (.inr h)
  | @string w r hw =>
    rw [List.append_assoc, List.cons_append, xRun_cons]
    have : xStep ⟨X, nl, .code .start⟩ '"' = ⟨X, nl || false, .code (.str [])⟩ := rfl
    rw [this, xRun_append, xRun_strChars hw, List.singleton_append, xRun_cons, Bool.or_false]
    have : xStep ⟨X, nl, .code (.str (w.reverse ++ []))⟩ '"' = ⟨(.str w, nl) :: X, false, .code .start⟩ := by
      simp [xStep, codeStep, lexStep, pushToks, isNewline]
    rw [this]
  | arrow =>
    show xRun (xStep (xStep ⟨X, nl, .code .start⟩ '=') '>') r = _
    have : xStep (xStep ⟨X, nl, .code .start⟩ '=') '>' = ⟨(.arrow, nl || false) :: X, false, .code .start⟩ := rfl
    rw [this, Bool.or_false]
  | equals hr =>
    rw [List.singleton_append, xRun_cons]
    have : xStep ⟨X, nl, .code .start⟩ '=' = ⟨X, nl || false, .code .eq⟩ := rfl
    rw [this, Bool.or_false]
    cases r with
    | nil => exact absurd rfl hr'
    | cons x r =>
      have hx : x ≠ '>' := hr
      rw [xRun_cons, xRun_cons]
      congr 1
      refine xStep_next rfl (by simp [lexStep, hx]) (fun _ => rfl)
  | @punct c r hc =>
    rw [List.singleton_append, xRun_cons]
    have : xStep ⟨X, nl, .code .start⟩ c = ⟨(.p c, nl) :: X, false, .code .start⟩ := by
      simp only [List.mem_cons, List.not_mem_nil, or_false] at hc
      rcases hc with rfl | rfl | rfl | rfl | rfl | rfl | rfl | rfl | rfl | rfl | rfl | rfl | rfl | rfl | rfl | rfl | rfl | rfl | rfl <;> rfl
    rw [this]

theorem lexeme_append {w r : Str} {t : Tok} (h : Lexeme w t r) : Lexeme w t (r ++ ['\n']) := by
  have hn : ∀ p : Char → Prop, ¬ p '\n' → NotNext p r → NotNext p (r ++ ['\n']) := by
    intro p h0 h
    cases r with
    | nil => exact h0
    | cons => exact h
  cases h with
  | name h1 h2 h3 => exact .name h1 h2 (hn _ (by decide) h3)
  | number h1 h2 h3 => exact .number h1 h2 (hn _ (by decide) h3)
  | string h1 => exact .string h1
  | arrow => exact .arrow
  | equals h1 => exact .equals (hn _ (by decide) h1)
  | punct h1 => exact .punct h1

theorem xRun_lineChars {w : Str} (hw : ∀ x ∈ w, x ∉ ['\n', '\r']) (X : List FTok) (nl : Bool) :
    xRun ⟨X, nl, .line⟩ w = ⟨X, nl, .line⟩ := by
  induction w with
  | nil => rfl
  | cons c w ih =>
    have hc := hw c List.mem_cons_self
    have : xStep ⟨X, nl, .line⟩ c = ⟨X, nl, .line⟩ := by
      simp at hc
      simp [xStep, isNewline, hc]
    rw [xRun_cons, this, ih (fun x hx => hw x (List.mem_cons_of_mem _ hx))]

theorem xRun_blockChars {w : Str} (X : List FTok) (nl : Bool) :
    (Unended (w ++ ['*']) → xRun ⟨X, nl, .block⟩ (w ++ ['*', '/']) = ⟨X, nl || w.any (fun x => x = '\n' || x = '\r'), .code .start⟩) ∧
    (Unended ('*' :: w ++ ['*']) → xRun ⟨X, nl, .star⟩ (w ++ ['*', '/']) = ⟨X, nl || w.any (fun x => x = '\n' || x = '\r'), .code .start⟩) := by
  have tail : ∀ {c : Char} {v : Str}, Unended (c :: v) → Unended v := by
    intro c v h a b e
    exact h (c :: a) b (by rw [e]; rfl)
  induction w generalizing nl with
  | nil => exact ⟨fun _ => by simp [xRun, xStep, isNewline], fun _ => by simp [xRun, xStep, isNewline]⟩
  | cons c w ih =>
    have e : ∀ nl, (nl || (c :: w).any (fun x => x = '\n' || x = '\r')) = ((nl || isNewline c) || w.any (fun x => x = '\n' || x = '\r')) := by
      intro nl; simp [isNewline, Bool.or_assoc]
    constructor
    · intro h
      rw [List.cons_append, xRun_cons, e]
      by_cases hc : c = '*'
      · subst hc
        exact (ih _).2 h
      · simp only [xStep, hc, if_false]
        exact (ih _).1 (tail h)
    · intro h
      rw [List.cons_append, xRun_cons, e]
      by_cases hc : c = '*'
      · subst hc
        simp only [xStep, if_true, show ('*' : Char) ≠ '/' from by decide, if_false]
        exact (ih _).2 (tail h)
      · have hs : c ≠ '/' := by
          rintro rfl
          exact h [] (w ++ ['*']) rfl
        simp only [xStep, hc, hs, if_false]
        exact (ih _).1 (tail (tail h))

theorem spellsMarked_xRun {nl : Bool} {cs : Str} {fts : List FTok} (h : SpellsMarked nl cs fts) (X : List FTok) :
    ∃ nl', xRun ⟨X, nl, .code .start⟩ (cs ++ ['\n']) = ⟨fts.reverse ++ X, nl', .code .start⟩ := by
  induction h generalizing X with
  | nil => exact ⟨_, rfl⟩
  | @space nl c r ts hc _ ih =>
    rw [List.cons_append, xRun_cons]
    have : xStep ⟨X, nl, .code .start⟩ c = ⟨X, nl, .code .start⟩ := by
      simp only [List.mem_cons, List.not_mem_nil, or_false] at hc
      rcases hc with rfl | rfl <;> simp [xStep, codeStep, lexStep, startStep, isWordChar, isSpace, pushToks, isNewline]
    rw [this]
    exact ih X
  | @newline nl c r ts hc _ ih =>
    rw [List.cons_append, xRun_cons]
    have : xStep ⟨X, nl, .code .start⟩ c = ⟨X, true, .code .start⟩ := by
      simp only [List.mem_cons, List.not_mem_nil, or_false] at hc
      rcases hc with rfl | rfl <;> simp [xStep, codeStep, lexStep, startStep, isWordChar, isSpace, pushToks, isNewline]
    rw [this]
    exact ih X
  | @line nl w r ts hw hr _ ih =>
    obtain ⟨nl', h⟩ := ih X
    rw [List.append_assoc, List.cons_append, List.cons_append, xRun_cons, xRun_cons]
    have : xStep (xStep ⟨X, nl, .code .start⟩ '/') '/' = ⟨X, nl || false, .line⟩ := rfl
    rw [this, Bool.or_false, xRun_append, xRun_lineChars hw]
    obtain ⟨c, r', e, hc⟩ : ∃ c r', r ++ ['\n'] = c :: r' ∧ isNewline c = true := by
      cases r with
      | nil => exact ⟨'\n', [], rfl, rfl⟩
      | cons c r =>
        refine ⟨c, _, rfl, ?_⟩
        have : ¬ (c ∉ ['\n', '\r']) := hr
        have := Decidable.not_not.1 this
        simpa [isNewline] using this
    rw [e, xRun_cons] at h
    rw [e, xRun_cons]
    refine ⟨nl', ?_⟩
    rw [← h]
    congr 1
    simp only [xStep, hc, if_true]
    have : c = '\n' ∨ c = '\r' := by simpa [isNewline] using hc
    rcases this with rfl | rfl <;> simp [codeStep, lexStep, startStep, isWordChar, isSpace, pushToks, isNewline]
  | @block nl w r ts hw _ ih =>
    obtain ⟨nl', h⟩ := ih X
    have e : '/' :: '*' :: w ++ '*' :: '/' :: r ++ ['\n'] = '/' :: '*' :: ((w ++ ['*', '/']) ++ (r ++ ['\n'])) := by simp
    rw [e, xRun_cons, xRun_cons]
    have : xStep (xStep ⟨X, nl, .code .start⟩ '/') '*' = ⟨X, nl || false, .block⟩ := rfl
    rw [this, Bool.or_false, xRun_append, (xRun_blockChars X nl).1 hw]
    exact ⟨nl', h⟩
  | @token nl w t r ts hl _ ih =>
    obtain ⟨nl', h⟩ := ih ((t, nl) :: X)
    refine ⟨nl', ?_⟩
    rw [List.append_assoc, xRun_lexeme (lexeme_append hl) (by simp), h]
    simp

/-- A source text is read as these tokens, some of them after a line break, exactly if the lexical grammar says so. -/
theorem source_iff (cs : Str) (fts : List FTok) : source cs = some fts ↔ SpellsMarked false cs fts := by
  constructor
  · intro h
    unfold source at h
    simp only at h
    split at h
    · rename_i hm
      injection h with h
      obtain ⟨_, h⟩ := xRun_sound fts _ ⟨[], false, .code .start⟩ hm h
      obtain ⟨fts', e, h⟩ := h trivial
      have e : fts = fts' := e
      subst e
      exact spellsMarked_strip h rfl
    · cases h
  · intro h
    obtain ⟨nl', h⟩ := spellsMarked_xRun h []
    unfold source
    simp only [show lit "\n" = ['\n'] from rfl, h]
    simp

end Verif.Js
