import Verif.Spec.Docs

/-!
# Lemmas on documentation texts (proof helper)
-/

namespace Verif.Derive
open Verif Verif.DocsSpec

/-! ## Trimming -/

theorem isWs_iff (c : Char) : isWs c = true ↔ WhiteSpace c := by
  unfold isWs WhiteSpace whiteSpace
  simp only [Bool.or_eq_true, Bool.and_eq_true, decide_eq_true_eq, beq_iff_eq, List.mem_cons, List.not_mem_nil, or_false]
  omega

theorem dropWhile_ws_append {a t : Str} (h : ∀ c ∈ a, isWs c = true) :
    (a ++ t).dropWhile isWs = t.dropWhile isWs := by
  induction a with
  | nil => rfl
  | cons c a ih =>
    have hc : isWs c = true := h c (by simp)
    simp only [List.cons_append, List.dropWhile_cons, hc, if_true]
    exact ih (fun x hx => h x (List.mem_cons_of_mem _ hx))

theorem dropWhile_ws_all {a : Str} (h : ∀ c ∈ a, isWs c = true) : a.dropWhile isWs = [] := by
  have := dropWhile_ws_append (t := []) h
  simpa using this

theorem takeWhile_ws {a : Str} : ∀ c ∈ a.takeWhile isWs, isWs c = true := by
  induction a with
  | nil => simp
  | cons x a ih =>
    intro c hc
    rw [List.takeWhile_cons] at hc
    split at hc
    · rcases List.mem_cons.1 hc with e | h
      · subst e; assumption
      · exact ih c h
    · simp at hc

theorem dropWhile_ws_head {a : Str} : ∀ c r, a.dropWhile isWs = c :: r → ¬ isWs c = true := by
  induction a with
  | nil => simp
  | cons x a ih =>
    intro c r h
    rw [List.dropWhile_cons] at h
    split at h
    · exact ih c r h
    · injection h with h1 _; subst h1; assumption

theorem trimmed_unique {s t : Str} (h : Trimmed s t) : t = trim s := by
  obtain ⟨⟨a, b, e, ha, hb⟩, h1, h2⟩ := h
  simp only [← isWs_iff] at ha hb h1 h2
  subst e
  unfold trim
  cases t with
  | nil =>
    have : ∀ c ∈ a ++ [] ++ b, isWs c = true := by
      intro c hc
      simp only [List.append_nil, List.mem_append] at hc
      exact hc.elim (ha c) (hb c)
    rw [dropWhile_ws_all this]; rfl
  | cons c r =>
    have hc : ¬ isWs c = true := h1 c r rfl
    have e1 : (a ++ (c :: r) ++ b).dropWhile isWs = (c :: r) ++ b := by
      rw [List.append_assoc, dropWhile_ws_append ha]
      simp [List.dropWhile_cons, hc]
    rw [e1, List.reverse_append, dropWhile_ws_append (by simpa using hb)]
    have e2 : ((c :: r).reverse).dropWhile isWs = (c :: r).reverse := by
      cases hr : (c :: r).reverse with
      | nil => rfl
      | cons d q =>
        have := h2 d q.reverse (by
          have := congrArg List.reverse hr
          simpa using this)
        simp [List.dropWhile_cons, this]
    rw [e2, List.reverse_reverse]

theorem trim_trimmed (s : Str) : Trimmed s (trim s) := by
  unfold Trimmed
  simp only [← isWs_iff]
  refine ⟨⟨s.takeWhile isWs, ((s.dropWhile isWs).reverse.takeWhile isWs).reverse, ?_, takeWhile_ws,
    ?_⟩, ?_, ?_⟩
  · unfold trim
    rw [List.append_assoc, ← List.reverse_append, List.takeWhile_append_dropWhile,
      List.reverse_reverse, List.takeWhile_append_dropWhile]
  · intro c hc
    exact takeWhile_ws c (List.mem_reverse.1 hc)
  · intro c r h
    unfold trim at h
    cases hd : s.dropWhile isWs with
    | nil => rw [hd] at h; simp at h
    | cons d q =>
      have hdn : ¬ isWs d = true := dropWhile_ws_head d q hd
      rw [hd, List.reverse_cons] at h
      have : ((q.reverse ++ [d]).dropWhile isWs) = (q.reverse.dropWhile isWs) ++ [d] := by
        generalize q.reverse = p
        induction p with
        | nil => simp [List.dropWhile_cons, hdn]
        | cons x p ih =>
          simp only [List.cons_append, List.dropWhile_cons]
          split
          · exact ih
          · rfl
      rw [this] at h
      simp at h
      rw [← h.1]; exact hdn
  · intro c r h
    unfold trim at h
    have := congrArg List.reverse h
    rw [List.reverse_reverse, List.reverse_append] at this
    exact dropWhile_ws_head c r.reverse (by simpa using this)

/-! ## Lines -/

theorem splitNl_ne_nil (s : Str) : splitNl s ≠ [] := by
  cases s with
  | nil => simp [splitNl]
  | cons c s =>
    unfold splitNl
    split
    · simp
    · cases splitNl s <;> simp

theorem splitNl_no_nl {s : Str} (h : '\n' ∉ s) : splitNl s = [s] := by
  induction s with
  | nil => rfl
  | cons c s ih =>
    simp only [List.mem_cons, not_or] at h
    unfold splitNl
    rw [if_neg (Ne.symm h.1), ih h.2]

theorem splitNl_append {a s : Str} (h : '\n' ∉ a) : splitNl (a ++ '\n' :: s) = a :: splitNl s := by
  induction a with
  | nil => simp [splitNl]
  | cons c a ih =>
    simp only [List.mem_cons, not_or] at h
    rw [List.cons_append, splitNl, if_neg (Ne.symm h.1), ih h.2]

theorem splitNl_join {l : Str} {ls : List Str} (h : ∀ x ∈ l :: ls, '\n' ∉ x) :
    splitNl (join (lit "\n") (l :: ls)) = l :: ls := by
  induction ls generalizing l with
  | nil => rw [join_singleton]; exact splitNl_no_nl (h l (by simp))
  | cons m ls ih =>
    rw [join_cons_cons]
    rw [List.append_assoc, show lit "\n" = ['\n'] from rfl, List.singleton_append]
    rw [show ['\n'] = lit "\n" from rfl, splitNl_append (h l (by simp)),
      ih (fun x hx => h x (List.mem_cons_of_mem _ hx))]

theorem splitNl_pieces {s : Str} : ∀ l ∈ splitNl s, '\n' ∉ l := by
  induction s with
  | nil => simp [splitNl]
  | cons c s ih =>
    intro l hl
    unfold splitNl at hl
    split at hl
    · rcases List.mem_cons.1 hl with e | h
      · subst e; simp
      · exact ih l h
    · rename_i hc
      cases hs : splitNl s with
      | nil => exact absurd hs (splitNl_ne_nil s)
      | cons m ms =>
        rw [hs] at hl ih
        rcases List.mem_cons.1 hl with e | h
        · subst e
          simp only [List.mem_cons, not_or]
          exact ⟨Ne.symm hc, ih m (by simp)⟩
        · exact ih l (List.mem_cons_of_mem _ h)

theorem splitNl_joins (s : Str) : join (lit "\n") (splitNl s) = s := by
  induction s with
  | nil => rfl
  | cons c s ih =>
    unfold splitNl
    split
    · rename_i hc
      subst hc
      cases hs : splitNl s with
      | nil => exact absurd hs (splitNl_ne_nil s)
      | cons m ms => rw [join_cons_cons, ← hs, ih]; rfl
    · cases hs : splitNl s with
      | nil => exact absurd hs (splitNl_ne_nil s)
      | cons m ms =>
        rw [hs] at ih
        cases ms with
        | nil => rw [join_singleton] at ih; simp [ih]
        | cons k ks => rw [join_cons_cons] at ih ⊢; simp only [List.cons_append, ih]

theorem stripCr_prefix (l : Str) : stripCr l <+: l := by
  unfold stripCr
  split
  · rename_i r h
    have := congrArg List.reverse h
    rw [List.reverse_reverse, List.reverse_cons] at this
    exact ⟨_, this.symm⟩
  · exact ⟨[], by simp⟩

theorem stripCr_eq {l : Str} (h : ∀ c r, l = r ++ [c] → ¬ isWs c = true) : stripCr l = l := by
  unfold stripCr
  split
  · rename_i r hr
    have := congrArg List.reverse hr
    rw [List.reverse_reverse, List.reverse_cons] at this
    exact absurd (by decide) (h '\r' r.reverse this)
  · rfl

theorem mem_lines {s l : Str} (h : l ∈ lines s) : ∃ p ∈ splitNl s, l <+: p := by
  unfold lines at h
  rcases List.mem_append.1 h with h | h
  · obtain ⟨p, hp, e⟩ := List.mem_map.1 h
    exact ⟨p, List.dropLast_subset _ hp, e ▸ stripCr_prefix p⟩
  · cases hg : (splitNl s).getLast? with
    | none => rw [hg] at h; simp at h
    | some p =>
      rw [hg] at h
      simp only at h
      split at h
      · simp at h
      · rw [List.mem_singleton] at h
        subst h
        exact ⟨_, List.mem_of_getLast? hg, ⟨[], by simp⟩⟩

/-! ## The loop -/

theorem fromAttrsLoop_none {attrs : List Attr} {full : Str} :
    fromAttrsLoop attrs full = none ↔ Attr.unparsable ∈ attrs := by
  induction attrs generalizing full with
  | nil => simp [fromAttrsLoop]
  | cons a attrs ih => cases a <;> simp [fromAttrsLoop, ih]

theorem fromAttrsLoop_nonempty {attrs : List Attr} (h : Attr.unparsable ∉ attrs) {full : Str}
    (hf : full ≠ []) : fromAttrsLoop attrs full =
      some (join (lit "\n") (full :: (docStrings attrs).map trim)) := by
  induction attrs generalizing full with
  | nil => rfl
  | cons a attrs ih =>
    simp only [List.mem_cons, not_or] at h
    cases a with
    | doc d =>
      rw [fromAttrsLoop, ih h.2 (by cases full <;> simp_all)]
      show some (join (lit "\n") (_ :: (docStrings attrs).map trim)) =
        some (join (lit "\n") (full :: trim d :: (docStrings attrs).map trim))
      congr 1
      rw [join_cons_cons]
      have : full.isEmpty = false := by cases full <;> simp_all
      rw [this]
      simp only [Bool.false_eq_true, if_false]
      cases (docStrings attrs).map trim with
      | nil => simp
      | cons x xs => rw [join_cons_cons, join_cons_cons]; simp [List.append_assoc]
    | other => rw [fromAttrsLoop, ih h.2 hf]; rfl
    | unparsable => exact absurd rfl h.1

theorem fromAttrsLoop_spec {attrs : List Attr} (h : Attr.unparsable ∉ attrs) :
    fromAttrsLoop attrs [] =
      some (join (lit "\n") (((docStrings attrs).map trim).dropWhile List.isEmpty)) := by
  induction attrs with
  | nil => rfl
  | cons a attrs ih =>
    simp only [List.mem_cons, not_or] at h
    cases a with
    | doc d =>
      rw [fromAttrsLoop]
      simp only [List.isEmpty_nil, if_true, List.nil_append]
      show _ = some (join (lit "\n") ((trim d :: (docStrings attrs).map trim).dropWhile List.isEmpty))
      rw [List.dropWhile_cons]
      cases hd : trim d with
      | nil => simpa using ih h.2
      | cons c r =>
        rw [fromAttrsLoop_nonempty h.2 (by simp)]
        simp
    | other => rw [fromAttrsLoop, ih h.2]; rfl
    | unparsable => exact absurd rfl h.1

/-! ## End marks -/

/-- Contains an end-of-comment mark. -/
def hasEnd : Str → Bool
  | [] => false
  | '*' :: '/' :: _ => true
  | _ :: s => hasEnd s

theorem hasEnd_star_slash (s : Str) : hasEnd ('*' :: '/' :: s) = true := rfl

theorem hasEnd_cons {c : Char} {s : Str} (h : ¬ (c = '*' ∧ ∃ r, s = '/' :: r)) :
    hasEnd (c :: s) = hasEnd s := by
  rw [hasEnd.eq_def]
  split
  · rename_i h1; cases h1
  · rename_i h1
    injection h1 with h1 h2
    exact absurd ⟨h1, _, h2⟩ h
  · rename_i h1
    injection h1 with h1 h2
    subst h2
    rfl

theorem hasEnd_iff (s : Str) : hasEnd s = true ↔ lit "*/" <:+: s := by
  induction s with
  | nil => simp [hasEnd, lit]
  | cons c s ih =>
    by_cases h : c = '*' ∧ ∃ r, s = '/' :: r
    · obtain ⟨rfl, r, rfl⟩ := h
      exact ⟨fun _ => ⟨[], r, rfl⟩, fun _ => rfl⟩
    · rw [hasEnd_cons h, ih]
      rw [List.infix_cons_iff]
      constructor
      · exact Or.inr
      · rintro (⟨t, ht⟩ | h')
        · refine absurd ?_ h
          have ht' : '*' :: '/' :: t = c :: s := ht
          injection ht' with h1 h2
          exact ⟨h1.symm, t, h2.symm⟩
        · exact h'

/-- A character that is neither `*` nor `/` separates. -/
theorem hasEnd_sep {c : Char} (h1 : c ≠ '*') (h2 : c ≠ '/') (a b : Str) :
    hasEnd (a ++ c :: b) = (hasEnd a || hasEnd b) := by
  induction a with
  | nil =>
    rw [List.nil_append, hasEnd_cons (fun h => h1 h.1)]
    rfl
  | cons x a ih =>
    by_cases h : x = '*' ∧ ∃ r, a = '/' :: r
    · obtain ⟨rfl, r, rfl⟩ := h
      rfl
    · rw [hasEnd_cons h, List.cons_append, hasEnd_cons, ih]
      rintro ⟨hx, r, hr⟩
      cases a with
      | nil =>
        rw [List.nil_append] at hr
        injection hr with hc _
        exact h2 hc
      | cons y a =>
        rw [List.cons_append] at hr
        injection hr with hy _
        exact h ⟨hx, a, by rw [hy]⟩

theorem hasEnd_infix {a b : Str} (h : a <:+: b) (hb : hasEnd b = false) : hasEnd a = false := by
  cases ha : hasEnd a with
  | false => rfl
  | true =>
    have := (hasEnd_iff b).2 (((hasEnd_iff a).1 ha).trans h)
    rw [hb] at this
    cases this

theorem hasEnd_join {ls : List Str} (h : ∀ l ∈ ls, hasEnd l = false) :
    hasEnd (join (lit "\n") ls) = false := by
  induction ls with
  | nil => rfl
  | cons l ls ih =>
    cases ls with
    | nil => exact h l (by simp)
    | cons m ls =>
      rw [join_cons_cons]
      rw [List.append_assoc, show lit "\n" = ['\n'] from rfl, List.singleton_append]
      rw [show ['\n'] = lit "\n" from rfl, hasEnd_sep (by decide) (by decide), h l (by simp),
        ih (fun x hx => h x (List.mem_cons_of_mem _ hx))]
      rfl

theorem comment_one {ls : List Str} (h : ∀ l ∈ ls, hasEnd l = false) : OneComment (comment ls) := by
  refine ⟨lit "*\n" ++ (ls.map (fun l => lit "* " ++ l ++ lit "\n")).flatten, ?_, ?_⟩
  · unfold comment
    show '/' :: '*' :: '*' :: '\n' :: _ = '/' :: '*' :: '*' :: '\n' :: _
    simp [lit]
  · rw [← hasEnd_iff]
    have key : ∀ ls : List Str, (∀ l ∈ ls, hasEnd l = false) →
        hasEnd ((ls.map (fun l => lit "* " ++ l ++ lit "\n")).flatten ++ lit "*") = false := by
      intro ls
      induction ls with
      | nil => intro _; rfl
      | cons l ls ih =>
        intro h
        rw [List.map_cons, List.flatten_cons, List.append_assoc]
        show hasEnd (('*' :: ' ' :: (l ++ ['\n'])) ++ _) = false
        rw [List.cons_append, List.cons_append, List.append_assoc, List.singleton_append]
        rw [hasEnd_cons (by rintro ⟨_, r, hr⟩; injection hr with h' _; exact absurd h' (by decide))]
        rw [hasEnd_cons (by rintro ⟨h', _⟩; exact absurd h' (by decide))]
        rw [hasEnd_sep (by decide) (by decide), h l (by simp),
          ih (fun x hx => h x (List.mem_cons_of_mem _ hx))]
        rfl
    have := key ls h
    rw [show lit "*\n" = ['*', '\n'] from rfl]
    simp only [List.cons_append, List.nil_append]
    rw [hasEnd_cons (by rintro ⟨_, r, hr⟩; injection hr with h' _; exact absurd h' (by decide)),
      hasEnd_cons (by rintro ⟨h', _⟩; exact absurd h' (by decide))]
    rw [this]; simp

/-! ## Escaping -/

/-- What becomes of one character. -/
def escChar (c : Char) : Str :=
  if c = '<' then lit "&lt;" else if c = '>' then lit "&gt;" else if c = '|' then lit "&#124;" else [c]

theorem replaceChar_append (c : Char) (b a a' : Str) :
    replaceChar c b (a ++ a') = replaceChar c b a ++ replaceChar c b a' := by
  simp [replaceChar]

theorem escape_cons (c : Char) (s : Str) : escape (c :: s) = escChar c ++ escape s := by
  have : c :: s = [c] ++ s := rfl
  rw [this]
  unfold escape
  rw [replaceChar_append, replaceChar_append, replaceChar_append]
  congr 1
  unfold escChar
  by_cases h1 : c = '<'
  · subst h1; decide
  · by_cases h2 : c = '>'
    · subst h2; decide
    · by_cases h3 : c = '|'
      · subst h3; decide
      · simp [replaceChar, h1, h2, h3]

theorem escape_nil : escape [] = [] := rfl

end Verif.Derive
