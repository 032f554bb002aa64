import Verif.Spec.File
import Verif.Client.Text

/-!
# Reading the client code and the namespaces together
-/

namespace Verif.Ts
open Verif Verif.Js Verif.Spec Verif.Client

/-! ## Tokens of a text after another text -/

/-- The same tokens; the flag of the first may differ (the lists are reversed). -/
inductive SameToks (X : List FTok) : XState → XState → Prop where
  | none (n n' : Bool) (m : XMode) : SameToks X ⟨X, n, m⟩ ⟨[], n', m⟩
  | some (T : List FTok) (t : Tok) (b b' n : Bool) (m : XMode) :
      SameToks X ⟨T ++ (t, b) :: X, n, m⟩ ⟨T ++ [(t, b')], n, m⟩

theorem pushToks_append (Y X : List FTok) (n : Bool) (ts : List Tok) :
    pushToks (Y ++ X) n ts = pushToks Y n ts ++ X := by
  induction ts with
  | nil => rfl
  | cons t r ih =>
    cases r with
    | nil => rfl
    | cons u r => show (t, false) :: pushToks (Y ++ X) n (u :: r) = _; rw [ih]; rfl

theorem pushToks_first (X : List FTok) (n n' : Bool) (ts : List Tok) (h : ts ≠ []) :
    ∃ T t, pushToks X n ts = T ++ (t, n) :: X ∧ pushToks [] n' ts = T ++ [(t, n')] := by
  induction ts with
  | nil => exact absurd rfl h
  | cons t r ih =>
    cases r with
    | nil => exact ⟨[], t, rfl, rfl⟩
    | cons u r =>
      obtain ⟨T, v, h1, h2⟩ := ih (by simp)
      refine ⟨(t, false) :: T, v, ?_, ?_⟩
      · show (t, false) :: pushToks X n (u :: r) = _; rw [h1]; rfl
      · show (t, false) :: pushToks [] n' (u :: r) = _; rw [h2]; rfl

theorem sameToks_step {X : List FTok} {s s' : XState} (h : SameToks X s s') (c : Char) :
    SameToks X (xStep s c) (xStep s' c) := by
  cases h with
  | none n n' m =>
    cases m with
    | code m =>
      simp only [xStep, codeStep]
      generalize lexStep ⟨[], m⟩ _ = q
      by_cases hq : q.acc = []
      · rw [hq]; exact .none _ _ _
      · obtain ⟨T, t, h1, h2⟩ := pushToks_first X n n' q.acc hq
        have : q.acc.isEmpty = false := by cases h : q.acc with
          | nil => exact absurd h hq
          | cons _ _ => rfl
        rw [h1, h2, this]
        exact .some T t _ _ _ _
    | slash =>
      simp only [xStep]
      split
      · exact .none _ _ _
      · split <;> exact .none _ _ _
    | line =>
      simp only [xStep]
      split <;> exact .none _ _ _
    | block => exact .none _ _ _
    | star => exact .none _ _ _
    | bad => exact .none _ _ _
  | some T t b b' n m =>
    cases m with
    | code m =>
      simp only [xStep, codeStep]
      generalize lexStep ⟨[], m⟩ _ = q
      have e1 : T ++ (t, b) :: X = (T ++ [(t, b)]) ++ X := by simp
      have key : ∀ (b : Bool), ∃ U, ∀ b, pushToks (T ++ [(t, b)]) n q.acc = U ++ [(t, b)] := by
        intro _
        refine ⟨pushToks T n q.acc, fun b => ?_⟩
        rw [pushToks_append]
      obtain ⟨U, hU⟩ := key b
      rw [e1, pushToks_append, hU, hU, List.append_assoc]
      exact .some U t b b' _ _
    | slash =>
      simp only [xStep]
      split
      · exact .some _ _ _ _ _ _
      · split <;> exact .some _ _ _ _ _ _
    | line =>
      simp only [xStep]
      split <;> exact .some _ _ _ _ _ _
    | block => exact .some _ _ _ _ _ _
    | star => exact .some _ _ _ _ _ _
    | bad => exact .some _ _ _ _ _ _

theorem sameToks_run {X : List FTok} {s s' : XState} (h : SameToks X s s') (cs : Str) :
    SameToks X (xRun s cs) (xRun s' cs) := by
  induction cs generalizing s s' with
  | nil => exact h
  | cons c r ih => exact ih (sameToks_step h c)

/-- The tokens of two texts of which the first ends outside of words, strings and comments. -/
theorem source_append {a b : Str} {X ts : List FTok} {nl : Bool}
    (ha : xRun ⟨[], false, .code .start⟩ a = ⟨X, nl, .code .start⟩) (hb : source b = some ts) :
    ∃ ts', source (a ++ b) = some (X.reverse ++ ts') ∧
      ((ts = [] ∧ ts' = []) ∨ ∃ t n n' r, ts = (t, n) :: r ∧ ts' = (t, n') :: r) := by
  unfold source at *
  simp only at hb ⊢
  rw [List.append_assoc, xRun_append, ha]
  have h := sameToks_run (X := X) (.none nl false (.code .start)) (b ++ lit "\n")
  generalize xRun ⟨X, nl, .code .start⟩ (b ++ lit "\n") = s at h
  generalize xRun ⟨[], false, .code .start⟩ (b ++ lit "\n") = s' at h hb
  cases h with
  | none n n' m =>
    simp only at hb ⊢
    split at hb
    · injection hb with hb
      exact ⟨[], by simp, Or.inl ⟨hb.symm, rfl⟩⟩
    · cases hb
  | some T t c c' n m =>
    simp only at hb ⊢
    split at hb
    · injection hb with hb
      refine ⟨(t, c) :: T.reverse, by simp, Or.inr ⟨t, c', c, T.reverse, ?_, rfl⟩⟩
      rw [← hb]; simp
    · cases hb

/-! ## Statements in front of the namespaces -/

/-- Runs over statements without namespaces. -/
def skip (s : FState) : List Tok → Option FState
  | [] => some s
  | t :: r =>
    if s.opened = [] ∧ t = .ident (lit "export") ∧ (r = [] ∨ r.head? = some (.ident (lit "namespace"))) then none
    else match fStep s t with
      | some s' => skip s' r
      | none => none

theorem fRun_skip {s s' : FState} {cs : List FTok} (h : skip s (cs.map (·.1)) = some s') (rest : List FTok) :
    fRun s (cs ++ rest) = fRun s' rest := by
  induction cs generalizing s with
  | nil => injection h with h; rw [h]; rfl
  | cons x r ih =>
    obtain ⟨t, n⟩ := x
    simp only [List.map_cons, skip] at h
    split at h
    · cases h
    · rename_i hno
      cases hf : fStep s t with
      | none => rw [hf] at h; cases h
      | some s1 =>
        rw [hf] at h
        have hi := ih h
        rw [List.cons_append]
        cases t with
        | ident a =>
          cases hr : r ++ rest with
          | nil => rw [fRun]; · rw [hf, ← hi, hr]
                   · simp
          | cons y r' =>
            obtain ⟨u, n2⟩ := y
            cases u with
            | ident b =>
              rw [fRun]
              rw [if_neg ?_]
              · simp only [hf]
                rw [← hi, hr]
              · rintro ⟨h1, rfl, rfl⟩
                apply hno
                refine ⟨h1, rfl, ?_⟩
                cases r with
                | nil => exact Or.inl rfl
                | cons z r =>
                  rw [List.cons_append] at hr
                  injection hr with hr _
                  subst hr
                  exact Or.inr rfl
            | _ =>
              rw [fRun]
              · simp only [hf]
                rw [← hi, hr]
              · simp
        | _ =>
          rw [fRun]
          · simp only [hf]
            rw [← hi]
          · simp

/-- The namespaces after statements. -/
theorem fRun_module {s : FState} (ho : s.opened = []) {ts ts' : List FTok} {M : List Ns}
    (hm : (match mRun ⟨[], [], [], .top⟩ ts with
      | some ⟨done, _, _, .top⟩ => some done
      | _ => none) = some M)
    (h : (ts = [] ∧ ts' = []) ∨ ∃ t n n' r, ts = (t, n) :: r ∧ ts' = (t, n') :: r) :
    fRun s ts' = some (s.decls.reverse, M) := by
  rcases h with ⟨rfl, rfl⟩ | ⟨t, n, n', r, rfl, rfl⟩
  · simp only [mRun, Option.some.injEq] at hm
    subst hm
    rw [fRun, if_pos ho]
  · have e : mRun ⟨[], [], [], .top⟩ ((t, n) :: r) = mRun ⟨[], [], [], .top⟩ ((t, n') :: r) := by
      simp only [mRun, mStep]
    rw [e] at hm
    cases t with
    | ident a =>
      by_cases ha : a = lit "export"
      · subst ha
        cases r with
        | nil => simp [mRun, mStep] at hm
        | cons y r =>
          obtain ⟨u, n2⟩ := y
          cases u with
          | ident b =>
            by_cases hb : b = lit "namespace"
            · subst hb
              rw [fRun, if_pos ⟨ho, rfl, rfl⟩]
              generalize mRun _ _ = q at hm
              rcases q with _ | ⟨a, b, c, d⟩
              · cases hm
              · cases d <;> first | (cases hm; done) | (simp only [Option.some.injEq] at hm; subst hm; rfl)
            · simp [mRun, mStep, hb] at hm
          | _ => simp [mRun, mStep] at hm
      · simp [mRun, mStep, ha] at hm
    | _ => simp [mRun, mStep] at hm

/-! ## The client code -/

/-- What the client code declares. -/
def clientDecls : List TopDecl :=
  [⟨lit "import", lit "z"⟩, ⟨lit "const", lit "WS_ADDR"⟩, ⟨lit "const", lit "reopenTimeouts"⟩,
   ⟨lit "function", lit "websocketStore"⟩, ⟨lit "type", lit "Store"⟩, ⟨lit "const", lit "CONNECTION"⟩,
   ⟨lit "let", lit "req_id"⟩, ⟨lit "function", lit "execute"⟩, ⟨lit "function", lit "subscribe"⟩,
   ⟨lit "function", lit "request"⟩]

/-- The state of the lexer after the client code. -/
def clientEnd : XState := xRun ⟨[], false, .code .start⟩ clientText

/-- Everything about the client code that is checked by evaluation. -/
def clientOk : Bool :=
  clientEnd.mode = .code .start &&
    match skip ⟨[], none, none, []⟩ (clientEnd.toks.reverse.map (·.1)) with
    | some s => s.opened = [] && s.decls.reverse = clientDecls
    | none => false

set_option maxRecDepth 100000 in
theorem client_ok : clientOk = true := by decide +kernel

theorem mode_eq {s : XState} {m : XMode} (h : s.mode = m) : s = ⟨s.toks, s.nl, m⟩ := by
  subst h; rfl

theorem client_file {text : Str} {M : List Ns} (h : readModule text = some M) :
    readFile (clientText ++ text) = some (clientDecls, M) := by
  have hc := client_ok
  unfold clientOk at hc
  simp only [Bool.and_eq_true, decide_eq_true_eq] at hc
  obtain ⟨h1, h2⟩ := hc
  unfold readModule at h
  cases hs : source text with
  | none => rw [hs] at h; cases h
  | some ts =>
    rw [hs] at h
    simp only at h
    have hx : xRun ⟨[], false, .code .start⟩ clientText = ⟨clientEnd.toks, clientEnd.nl, .code .start⟩ :=
      mode_eq h1
    obtain ⟨ts', ht, hrel⟩ := source_append hx hs
    unfold readFile
    rw [ht]
    simp only
    cases hk : skip ⟨[], none, none, []⟩ (clientEnd.toks.reverse.map (·.1)) with
    | none => rw [hk] at h2; cases h2
    | some s =>
      rw [hk] at h2
      simp only [Bool.and_eq_true, decide_eq_true_eq] at h2
      rw [fRun_skip hk, fRun_module h2.1 h hrel, h2.2]

end Verif.Ts
