import Verif.Spec.Grammar

/-!
# The lexer accepts exactly the lexical grammar
-/

namespace Verif.Js
open Verif

theorem isDigit_word {c : Char} (h : isDigit c = true) : isWordChar c = true := by
  unfold isDigit at h
  unfold isWordChar
  rw [h]
  simp

theorem wordTok_ident {c : Char} {w : Str} {t : Tok} (hd : isDigit c = false) (h : wordTok (c :: w) = some t) :
    t = .ident (c :: w) := by
  unfold wordTok at h
  simp only [hd, Bool.false_eq_true, if_false] at h
  injection h with h
  exact h.symm

theorem wordTok_num {c : Char} {w : Str} {t : Tok} (hd : isDigit c = true) (h : wordTok (c :: w) = some t) :
    t = .num (digitsVal (c :: w)) ∧ (∀ x ∈ c :: w, isDigit x = true) ∧ (c = '0' → w = []) := by
  unfold wordTok at h
  simp only [hd, if_true] at h
  split at h
  · rename_i hc
    simp only [Bool.and_eq_true, List.all_eq_true, Bool.or_eq_true, bne_iff_ne, ne_eq, List.isEmpty_iff] at hc
    injection h with h
    refine ⟨h.symm, ?_, ?_⟩
    · intro x hx
      rcases List.mem_cons.1 hx with rfl | hx
      · exact hd
      · exact hc.1 x hx
    · intro h0
      rcases hc.2 with h | h
      · exact absurd h0 h
      · exact h
  · cases h

/-- What has been read of the current token. -/
def Mode.text : Mode → Str
  | .start => []
  | .word w => w.reverse
  | .str w => '"' :: w.reverse
  | .eq => ['=']
  | .bad => []

/-- What the lexer can be in the middle of. -/
def Mode.ok : Mode → Prop
  | .word w => w ≠ [] ∧ ∀ x ∈ w, isWordChar x = true
  | .str w => ∀ x ∈ w, x ∉ ['"', '\\', '\n', '\r']
  | .bad => False
  | _ => True

theorem lexRun_bad {acc : List Tok} (cs : Str) : lexRun ⟨acc, .bad⟩ cs = ⟨acc, .bad⟩ := by
  induction cs with
  | nil => rfl
  | cons c r ih => rw [lexRun_cons]; exact ih

theorem lexeme_word {w r : Str} {t : Tok} (hne : w ≠ []) (hw : ∀ x ∈ w, isWordChar x = true)
    (ht : wordTok w = some t) (hr : NotNext (fun x => isWordChar x = true) r) (hn : ∀ n, t = .num n → NotNext (· = '.') r)
    : Lexeme w t r := by
  cases w with
  | nil => exact absurd rfl hne
  | cons c w =>
    cases hd : isDigit c with
    | false =>
      rw [wordTok_ident hd ht]
      exact .name hd hw hr
    | true =>
      obtain ⟨rfl, h1, h2⟩ := wordTok_num hd ht
      refine .number h1 h2 ?_
      have := hn _ rfl
      cases r with
      | nil => trivial
      | cons x r => exact fun hx => hx.elim (fun a => hr a) (fun a => this a)

theorem startStep_sound {acc : List Tok} {c : Char} {r : Str} {out : List Tok}
    (ih : ∀ s : LState, lexEnd (lexRun s r) = some out → s.mode.ok → ∃ ts, out = s.acc.reverse ++ ts ∧ Spells (s.mode.text ++ r) ts)
    (h : lexEnd (lexRun (startStep acc c) r) = some out) : ∃ ts, out = acc.reverse ++ ts ∧ Spells (c :: r) ts := by
  unfold startStep at h
  split at h
  · rename_i hc
    exact ih _ h ⟨by simp, by simpa using hc⟩
  · split at h
    · rename_i hc
      subst hc
      exact ih _ h (by simp [Mode.ok])
    · split at h
      · rename_i hc
        subst hc
        exact ih _ h trivial
      · split at h
        · rename_i hc
          obtain ⟨ts, h1, h2⟩ := ih _ h trivial
          exact ⟨ts, h1, .space (by simpa [isSpace, or_assoc] using hc) h2⟩
        · split at h
          · rename_i hc
            obtain ⟨ts, h1, h2⟩ := ih _ h trivial
            exact ⟨.p c :: ts, by simpa using h1, .token (w := [c]) (.punct (by simpa [isPunct] using hc)) h2⟩
          · rw [lexRun_bad] at h
            cases h

theorem lexRun_sound (out : List Tok) (cs : Str) : ∀ s : LState, lexEnd (lexRun s cs) = some out → s.mode.ok →
    ∃ ts, out = s.acc.reverse ++ ts ∧ Spells (s.mode.text ++ cs) ts := by
  induction cs with
  | nil =>
    rintro ⟨acc, m⟩ h ok
    rw [lexRun_nil] at h
    unfold lexEnd at h
    cases m with
    | start => injection h with h; exact ⟨[], by simp [h], .nil⟩
    | eq => injection h with h; exact ⟨[.p '='], by simp [← h], .token (w := ['=']) (.equals trivial) .nil⟩
    | word w =>
      simp only at h
      cases ht : wordTok w.reverse with
      | none => rw [ht] at h; cases h
      | some t =>
        rw [ht] at h
        injection h with h
        refine ⟨[t], by simp [← h], ?_⟩
        exact .token (lexeme_word (by simpa [Mode.text] using ok.1) (by simpa [Mode.text] using ok.2) ht trivial (fun _ _ => trivial)) .nil
    | str w => cases h
    | bad => cases h
  | cons c r ih =>
    rintro ⟨acc, m⟩ h ok
    rw [lexRun_cons] at h
    cases m with
    | bad => exact ok.elim
    | start => exact startStep_sound ih h
    | eq =>
      simp only [lexStep] at h
      split at h
      · rename_i hc
        subst hc
        obtain ⟨ts, h1, h2⟩ := ih _ h trivial
        exact ⟨.arrow :: ts, by simpa using h1, .token (w := ['=', '>']) .arrow h2⟩
      · rename_i hc
        obtain ⟨ts, h1, h2⟩ := startStep_sound ih h
        exact ⟨.p '=' :: ts, by simpa using h1, .token (w := ['=']) (.equals hc) h2⟩
    | str w =>
      simp only [lexStep] at h
      split at h
      · rename_i hc
        subst hc
        obtain ⟨ts, h1, h2⟩ := ih _ h trivial
        refine ⟨.str w.reverse :: ts, by simpa using h1, ?_⟩
        have := Spells.token (.string (fun x hx => ok x (List.mem_reverse.1 hx))) h2
        simpa [Mode.text] using this
      · rename_i hc
        split at h
        · rw [lexRun_bad] at h
          cases h
        · rename_i hc'
          have := ih _ h (by
            intro x hx
            rcases List.mem_cons.1 hx with rfl | hx
            · simp at hc'
              simp [hc, hc']
            · exact ok x hx)
          simpa [Mode.text] using this
    | word w =>
      simp only [lexStep] at h
      cases hc : isWordChar c with
      | true =>
        rw [hc, if_pos rfl] at h
        have := ih _ h ⟨by simp, by
          intro x hx
          rcases List.mem_cons.1 hx with rfl | hx
          · exact hc
          · exact ok.2 x hx⟩
        simpa [Mode.text] using this
      | false =>
        rw [hc, if_neg (by simp)] at h
        cases ht : wordTok w.reverse with
        | none => rw [ht] at h; simp only [lexRun_bad] at h; cases h
        | some t =>
          rw [ht] at h
          have key : (∀ n, t = .num n → c ≠ '.') ∧ lexEnd (lexRun (startStep (t :: acc) c) r) = some out := by
            cases t with
            | num n =>
              simp only at h
              split at h
              · rw [lexRun_bad] at h; cases h
              · rename_i hd
                exact ⟨fun _ _ => hd, h⟩
            | ident => exact ⟨fun _ h => (by cases h), h⟩
            | str => exact ⟨fun _ h => (by cases h), h⟩
            | p => exact ⟨fun _ h => (by cases h), h⟩
            | arrow => exact ⟨fun _ h => (by cases h), h⟩
          obtain ⟨ts, h1, h2⟩ := startStep_sound ih key.2
          refine ⟨t :: ts, by simpa using h1, ?_⟩
          exact .token (lexeme_word (by simpa [Mode.text] using ok.1) (by simpa [Mode.text] using ok.2) ht (by simp [NotNext, hc]) key.1) h2

theorem lexRun_wordChars {w : Str} (hw : ∀ x ∈ w, isWordChar x = true) (acc : List Tok) (v : Str) :
    lexRun ⟨acc, .word v⟩ w = ⟨acc, .word (w.reverse ++ v)⟩ := by
  induction w generalizing v with
  | nil => rfl
  | cons c w ih =>
    rw [lexRun_cons]
    have : lexStep ⟨acc, .word v⟩ c = ⟨acc, .word (c :: v)⟩ := by simp [lexStep, hw c List.mem_cons_self]
    rw [this, ih (fun x hx => hw x (List.mem_cons_of_mem _ hx))]
    simp

theorem lexRun_strChars {w : Str} (hw : ∀ x ∈ w, x ∉ ['"', '\\', '\n', '\r']) (acc : List Tok) (v : Str) :
    lexRun ⟨acc, .str v⟩ w = ⟨acc, .str (w.reverse ++ v)⟩ := by
  induction w generalizing v with
  | nil => rfl
  | cons c w ih =>
    rw [lexRun_cons]
    have : lexStep ⟨acc, .str v⟩ c = ⟨acc, .str (c :: v)⟩ := by
      have := hw c List.mem_cons_self
      simp at this
      simp [lexStep, this]
    rw [this, ih (fun x hx => hw x (List.mem_cons_of_mem _ hx))]
    simp

theorem lexEnd_word {w r : Str} {ts acc : List Tok} {t : Tok} (hne : w ≠ []) (hw : ∀ x ∈ w, isWordChar x = true)
    (ht : wordTok w = some t) (hr : NotNext (fun x => isWordChar x = true) r) (hn : ∀ n, t = .num n → NotNext (· = '.') r)
    (ih : ∀ acc, lexEnd (lexRun ⟨acc, .start⟩ r) = some (acc.reverse ++ ts)) :
    lexEnd (lexRun ⟨acc, .start⟩ (w ++ r)) = some (acc.reverse ++ t :: ts) := by
  cases w with
  | nil => exact absurd rfl hne
  | cons c w =>
    have h0 : lexRun ⟨acc, .start⟩ (c :: w) = ⟨acc, .word (c :: w).reverse⟩ := by
      rw [lexRun_cons]
      have : lexStep ⟨acc, .start⟩ c = ⟨acc, .word [c]⟩ := by simp [lexStep, startStep, hw c List.mem_cons_self]
      rw [this, lexRun_wordChars (fun x hx => hw x (List.mem_cons_of_mem _ hx))]
      simp
    rw [lexRun_append, h0]
    cases r with
    | nil =>
      have := ih []
      injection this with this
      simp only [List.reverse_nil, List.nil_append] at this
      subst this
      simp [lexEnd, ht]
    | cons x r =>
      have hx : isWordChar x = false := by simpa [NotNext] using hr
      have hstep : lexStep ⟨acc, .word (c :: w).reverse⟩ x = lexStep ⟨t :: acc, .start⟩ x := by
        simp only [lexStep, hx, List.reverse_reverse, ht]
        cases t with
        | num n =>
          have : x ≠ '.' := hn n rfl
          simp [this]
        | _ => rfl
      rw [lexRun_cons, hstep, ← lexRun_cons, ih]
      simp

theorem lexeme_lexRun {w r : Str} {t : Tok} (h : Lexeme w t r) {ts : List Tok}
    (ih : ∀ acc, lexEnd (lexRun ⟨acc, .start⟩ r) = some (acc.reverse ++ ts)) (acc : List Tok) :
    lexEnd (lexRun ⟨acc, .start⟩ (w ++ r)) = some (acc.reverse ++ t :: ts) := by
  cases h with
  | @name c w r hd hw hr => exact lexEnd_word (by simp) hw (by simp [wordTok, hd]) hr (fun _ h => by cases h) ih
  | @number c w r hd h0 hr =>
    refine lexEnd_word (by simp) (fun x hx => isDigit_word (hd x hx)) ?_ ?_ ?_ ih
    · have h1 := hd c List.mem_cons_self
      have h2 : w.all isDigit = true := List.all_eq_true.2 (fun x hx => hd x (List.mem_cons_of_mem _ hx))
      have h3 : (c != '0' || w.isEmpty) = true := by
        by_cases hc : c = '0'
        · simp [h0 hc]
        · simp [hc]
      simp only [wordTok, h1, h2, h3, Bool.and_self, if_true]
    · cases r with
      | nil => trivial
      | cons x r => exact fun h => hr (.inl h)
    · intro n _
      cases r with
      | nil => trivial
      | cons x r => exact fun h => hr (.inr h)
  | @string w r hw =>
    rw [List.append_assoc, List.cons_append, lexRun_cons]
    have : lexStep ⟨acc, .start⟩ '"' = ⟨acc, .str []⟩ := rfl
    rw [this, lexRun_append, lexRun_strChars hw, List.singleton_append, lexRun_cons]
    have : lexStep ⟨acc, .str (w.reverse ++ [])⟩ '"' = ⟨.str w :: acc, .start⟩ := by simp [lexStep]
    rw [this, ih]
    simp
  | arrow =>
    show lexEnd (lexRun (lexStep (lexStep ⟨acc, .start⟩ '=') '>') r) = _
    have : lexStep (lexStep ⟨acc, .start⟩ '=') '>' = ⟨.arrow :: acc, .start⟩ := rfl
    rw [this, ih]
    simp
  | equals hr =>
    rw [List.singleton_append, lexRun_cons]
    have : lexStep ⟨acc, .start⟩ '=' = ⟨acc, .eq⟩ := rfl
    rw [this]
    cases r with
    | nil =>
      have := ih []
      injection this with this
      simp only [List.reverse_nil, List.nil_append] at this
      subst this
      simp [lexEnd]
    | cons x r =>
      have hx : x ≠ '>' := hr
      have : lexStep ⟨acc, .eq⟩ x = lexStep ⟨.p '=' :: acc, .start⟩ x := by simp [lexStep, hx]
      rw [lexRun_cons, this, ← lexRun_cons, ih]
      simp
  | @punct c r hc =>
    rw [List.singleton_append, lexRun_cons]
    have : lexStep ⟨acc, .start⟩ c = ⟨.p c :: acc, .start⟩ := by
      simp only [List.mem_cons, List.not_mem_nil, or_false] at hc
      rcases hc with rfl | rfl | rfl | rfl | rfl | rfl | rfl | rfl | rfl | rfl | rfl | rfl | rfl | rfl | rfl | rfl | rfl | rfl | rfl <;> rfl
    rw [this, ih]
    simp

theorem spells_lexRun {cs : Str} {ts : List Tok} (h : Spells cs ts) :
    ∀ acc, lexEnd (lexRun ⟨acc, .start⟩ cs) = some (acc.reverse ++ ts) := by
  induction h with
  | nil => intro acc; simp [lexEnd]
  | @space c r ts hc _ ih =>
    intro acc
    rw [lexRun_cons]
    have : lexStep ⟨acc, .start⟩ c = ⟨acc, .start⟩ := by
      simp only [List.mem_cons, List.not_mem_nil, or_false] at hc
      rcases hc with rfl | rfl | rfl | rfl <;> rfl
    rw [this, ih]
  | token hl _ ih => exact lexeme_lexRun hl ih

/-- A text is read as these tokens exactly if the lexical grammar says so. -/
theorem lex_iff (cs : Str) (ts : List Tok) : lex cs = some ts ↔ Spells cs ts := by
  constructor
  · intro h
    obtain ⟨ts', e, h⟩ := lexRun_sound ts cs ⟨[], .start⟩ h trivial
    have e : ts = ts' := e
    rw [e]
    exact h
  · intro h
    have := spells_lexRun h []
    simpa [lex] using this

end Verif.Js
