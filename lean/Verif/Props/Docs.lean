import Verif.Derive.DocsLemmas

/-!
# Properties C15 and C16: documentation texts
-/

namespace Verif.Props
open Verif Verif.Derive Verif.DocsSpec

/-- C15: deriving fails exactly on an attribute that does not parse. -/
theorem C15_fails_iff (attrs : List Attr) : docsText attrs = none ↔ Attr.unparsable ∈ attrs := by
  unfold docsText fromAttrs
  rw [Option.map_eq_none_iff, Option.map_eq_none_iff, fromAttrsLoop_none]

theorem dropWhile_empty_iff (ts : List Str) :
    ts.dropWhile List.isEmpty = [] ↔ ∀ t ∈ ts, t = [] := by
  induction ts with
  | nil => simp
  | cons t ts ih =>
    rw [List.dropWhile_cons]
    cases t with
    | nil => simpa using ih
    | cons c r => simp

theorem join_dropWhile_empty_iff (ts : List Str) :
    join (lit "\n") (ts.dropWhile List.isEmpty) = [] ↔ ∀ t ∈ ts, t = [] := by
  induction ts with
  | nil => simp
  | cons t ts ih =>
    rw [List.dropWhile_cons]
    cases t with
    | nil => simpa using ih
    | cons c r =>
      simp only [List.isEmpty_cons, Bool.false_eq_true, if_false]
      cases ts with
      | nil => simp
      | cons u us => rw [join_cons_cons]; simp

theorem docsText_eq {attrs : List Attr} (h : Attr.unparsable ∉ attrs) :
    docsText attrs = some
      (if ∀ t ∈ (docStrings attrs).map trim, t = [] then []
       else comment (lines (join (lit "\n")
        (((docStrings attrs).map trim).dropWhile List.isEmpty)))) := by
  unfold docsText fromAttrs
  rw [fromAttrsLoop_spec h]
  simp only [Option.map_some, Option.some.injEq, List.isEmpty_iff]
  by_cases he : ∀ t ∈ (docStrings attrs).map trim, t = []
  · rw [if_pos he, if_pos ((join_dropWhile_empty_iff _).2 he)]; rfl
  · rw [if_neg he, if_neg (fun hj => he ((join_dropWhile_empty_iff _).1 hj))]; rfl

/-- C15, line comments: with one doc string per line, the text is one comment of the trimmed lines,
without the leading blank ones and without one final blank one; it is empty if all are blank. -/
theorem C15_lines (attrs : List Attr) (ts : List Str) (h : Attr.unparsable ∉ attrs)
    (hnl : ∀ d ∈ docStrings attrs, '\n' ∉ d) (hts : AllTrimmed (docStrings attrs) ts) :
    docsText attrs = some
      (match ts.dropWhile List.isEmpty with
        | [] => []
        | l :: ls => comment (if (l :: ls).getLast? = some [] then (l :: ls).dropLast else l :: ls)) := by
  have hts' : ts = (docStrings attrs).map trim := by
    clear hnl
    generalize docStrings attrs = ds at hts
    induction hts with
    | nil => rfl
    | cons hd _ ih => rw [List.map_cons, ← ih, ← trimmed_unique hd]
  subst hts'
  rw [docsText_eq h]
  have htr : ∀ t ∈ ((docStrings attrs).map trim).dropWhile List.isEmpty,
      '\n' ∉ t ∧ ∀ c r, t = r ++ [c] → ¬ isWs c = true := by
    intro t ht
    obtain ⟨d, hd, e⟩ := List.mem_map.1 ((List.dropWhile_sublist _).subset ht)
    obtain ⟨⟨a, b, e', _, _⟩, _, hl⟩ := trim_trimmed d
    subst e
    refine ⟨?_, fun c r e => by rw [isWs_iff]; exact hl c r e⟩
    intro hn
    refine hnl d hd ?_
    rw [e']
    simp [hn]
  congr 1
  by_cases he : ∀ t ∈ (docStrings attrs).map trim, t = []
  · rw [if_pos he]
    rw [(dropWhile_empty_iff _).2 he]
  · rw [if_neg he]
    cases hd : ((docStrings attrs).map trim).dropWhile List.isEmpty with
    | nil => exact absurd ((dropWhile_empty_iff _).1 hd) he
    | cons l ls =>
      rw [hd] at htr
      simp only
      congr 1
      unfold lines
      rw [splitNl_join (fun x hx => (htr x hx).1)]
      have hm : ∀ xs : List Str, (∀ x ∈ xs, x ∈ l :: ls) → xs.map stripCr = xs := by
        intro xs hx
        refine (List.map_congr_left (g := id) ?_).trans (List.map_id _)
        intro x hxx
        exact stripCr_eq (htr x (hx x hxx)).2
      show ((l :: ls).dropLast.map stripCr ++ _ : List Str) = _
      rw [hm _ (fun x hx => List.dropLast_subset _ hx)]
      cases hg : (l :: ls).getLast? with
      | none => simp at hg
      | some g =>
        have hcat : (l :: ls).dropLast ++ [g] = l :: ls := by
          have hne : l :: ls ≠ [] := by simp
          rw [List.getLast?_eq_some_getLast hne] at hg
          injection hg with hg
          rw [← hg]
          exact List.dropLast_concat_getLast hne
        by_cases hge : g = []
        · subst hge; simp
        · simp only [Option.some.injEq, hge, if_false, List.isEmpty_iff]
          exact hcat

/-- C15: any doc strings, also with line breaks inside. The text is empty or one comment, each of its
lines is a piece, free of line breaks, of a trimmed doc string. -/
theorem C15_comment_block (attrs : List Attr) (h : Attr.unparsable ∉ attrs) :
    (docsText attrs = some [] ∧ ∀ d ∈ docStrings attrs, Trimmed d []) ∨
    ∃ ls, docsText attrs = some (comment ls) ∧ ls ≠ [] ∧
      ∀ l ∈ ls, '\n' ∉ l ∧
        l <:+: join (lit "\n") (((docStrings attrs).map trim).dropWhile List.isEmpty) := by
  rw [docsText_eq h]
  by_cases he : ∀ t ∈ (docStrings attrs).map trim, t = []
  · left
    rw [if_pos he]
    refine ⟨rfl, ?_⟩
    intro d hd
    have := he (trim d) (List.mem_map_of_mem hd)
    rw [← this]
    exact trim_trimmed d
  · right
    rw [if_neg he]
    refine ⟨_, rfl, ?_, ?_⟩
    · intro hl
      generalize hj : join (lit "\n") (((docStrings attrs).map trim).dropWhile List.isEmpty) = j at hl
      have hjn : j ≠ [] := by
        intro e
        rw [e] at hj
        exact he ((join_dropWhile_empty_iff _).1 hj)
      unfold lines at hl
      obtain ⟨h1, h2⟩ := List.append_eq_nil_iff.1 hl
      rw [List.map_eq_nil_iff] at h1
      have hs := splitNl_joins j
      cases hsp : splitNl j with
      | nil => exact splitNl_ne_nil j hsp
      | cons p ps =>
        rw [hsp] at h1 h2 hs
        cases ps with
        | nil =>
          simp only [List.getLast?_singleton] at h2
          rw [join_singleton] at hs
          subst hs
          cases p with
          | nil => exact hjn rfl
          | cons c r => simp at h2
        | cons q qs => simp at h1
    · intro l hl
      obtain ⟨p, hp, hlp⟩ := mem_lines hl
      refine ⟨fun hn => splitNl_pieces p hp (hlp.subset hn), ?_⟩
      refine hlp.isInfix.trans ?_
      rw [← splitNl_joins (join (lit "\n") (((docStrings attrs).map trim).dropWhile List.isEmpty))]
      generalize splitNl (join (lit "\n") (((docStrings attrs).map trim).dropWhile List.isEmpty)) = ps at hp
      clear hlp hl he
      induction ps with
      | nil => simp at hp
      | cons q qs ih =>
        cases qs with
        | nil =>
          rw [List.mem_singleton] at hp
          subst hp
          rw [join_singleton]
          exact List.infix_rfl
        | cons r rs =>
          rw [join_cons_cons]
          rcases List.mem_cons.1 hp with e | h'
          · subst e
            rw [List.append_assoc]
            exact (List.prefix_append _ _).isInfix
          · exact (ih h').trans (List.suffix_append _ _).isInfix

/-- C15: the comment ends exactly at its end when no doc string contains an end-of-comment mark. -/
theorem C15_one_comment (attrs : List Attr) (h : Attr.unparsable ∉ attrs)
    (hd : ∀ d ∈ docStrings attrs, ¬ lit "*/" <:+: d) :
    docsText attrs = some [] ∨ ∃ text, docsText attrs = some text ∧ OneComment text := by
  rcases C15_comment_block attrs h with ⟨h1, _⟩ | ⟨ls, h1, _, h2⟩
  · exact Or.inl h1
  · right
    refine ⟨_, h1, comment_one ?_⟩
    intro l hl
    refine hasEnd_infix (h2 l hl).2 (hasEnd_join ?_)
    intro t ht
    obtain ⟨d, hd', e⟩ := List.mem_map.1 ((List.dropWhile_sublist _).subset ht)
    obtain ⟨⟨a, b, e', _, _⟩, _, _⟩ := trim_trimmed d
    subst e
    refine hasEnd_infix (b := d) ⟨a, b, e'.symm⟩ ?_
    cases hx : hasEnd d with
    | false => rfl
    | true => exact absurd ((hasEnd_iff d).1 hx) (hd d hd')

/-- C15: the proviso is needed; nothing escapes the mark. -/
theorem C15_mark_not_escaped :
    docsText [.doc (lit " a */ b")] = some (lit "/**\n* a */ b\n*/\n") ∧
    ¬ OneComment (lit "/**\n* a */ b\n*/\n") := by
  refine ⟨by decide +kernel, ?_⟩
  rintro ⟨body, h1, h2⟩
  have hb : body = lit "*\n* a */ b\n" := by
    have h3 : lit "/**\n* a */ b\n*/\n" = lit "/*" ++ lit "*\n* a */ b\n" ++ lit "*/" ++ lit "\n" := by
      decide +kernel
    rw [h3] at h1
    simp only [List.append_assoc] at h1
    have := List.append_cancel_left h1
    exact (List.append_cancel_right this).symm
  subst hb
  exact h2 ((hasEnd_iff _).1 (by decide +kernel))

/-- C16: no special character survives. -/
theorem C16_complete (s : Str) : ∀ c ∈ escape s, ¬ special c := by
  induction s with
  | nil => intro c hc; simp [escape_nil] at hc
  | cons x s ih =>
    intro c hc
    rw [escape_cons] at hc
    rcases List.mem_append.1 hc with h | h
    · unfold escChar at h
      unfold special
      split at h
      · revert h; clear hc; revert c; decide +kernel
      · split at h
        · revert h; clear hc; revert c; decide +kernel
        · split at h
          · revert h; clear hc; revert c; decide +kernel
          · rw [List.mem_singleton] at h
            subst h
            simp_all
    · exact ih c h

theorem escape_of_plain {s : Str} (h : ∀ c ∈ s, ¬ special c) : escape s = s := by
  induction s with
  | nil => rfl
  | cons x s ih =>
    rw [escape_cons, ih (fun c hc => h c (List.mem_cons_of_mem _ hc))]
    have := h x (by simp)
    unfold special at this
    simp only [not_or] at this
    simp [escChar, this.1, this.2.1, this.2.2]

/-- C16: escaping twice is escaping once. -/
theorem C16_idempotent (s : Str) : escape (escape s) = escape s :=
  escape_of_plain (C16_complete s)

theorem escape_prefix {p s : Str} (hp : ∀ c ∈ p, c ≠ '&') (h : p <+: escape s) :
    p <+: s := by
  induction p generalizing s with
  | nil => simp
  | cons c p ih =>
    cases s with
    | nil => simp [escape_nil] at h
    | cons x s =>
      rw [escape_cons] at h
      have hc : c ≠ '&' := hp c (by simp)
      have hx : escChar x = [x] := by
        unfold escChar at h ⊢
        split at h
        · exact absurd (List.cons_prefix_cons.1 h).1 hc
        · split at h
          · exact absurd (List.cons_prefix_cons.1 h).1 hc
          · split at h
            · exact absurd (List.cons_prefix_cons.1 h).1 hc
            · simp [*]
      rw [hx] at h
      obtain ⟨e, h'⟩ := List.cons_prefix_cons.1 h
      subst e
      exact List.cons_prefix_cons.2 ⟨rfl, ih (fun c hc => hp c (List.mem_cons_of_mem _ hc)) h'⟩

theorem decode_cons {c : Char} {s : Str}
    (h : ¬ (c = '&' ∧ (lit "lt;" <+: s ∨ lit "gt;" <+: s ∨ lit "#124;" <+: s))) :
    decode (c :: s) = c :: decode s := by
  rw [decode.eq_def]
  split
  · rename_i h1; injection h1 with h1 h2
    exact absurd ⟨h1, Or.inl ⟨_, h2.symm⟩⟩ h
  · rename_i h1; injection h1 with h1 h2
    exact absurd ⟨h1, Or.inr (Or.inl ⟨_, h2.symm⟩)⟩ h
  · rename_i h1; injection h1 with h1 h2
    exact absurd ⟨h1, Or.inr (Or.inr ⟨_, h2.symm⟩)⟩ h
  · rename_i h1; injection h1 with h1 h2
    rw [h1, h2]
  · rename_i h1; cases h1

/-- C16: the escaped text decodes to the input, if the input has no entity of its own. -/
theorem C16_decodes (s : Str) (h : ¬ HasEntity s) : decode (escape s) = s := by
  induction s with
  | nil => rfl
  | cons x s ih =>
    have hs : ¬ HasEntity s := by
      intro h'
      refine h ?_
      unfold HasEntity at h' ⊢
      rcases h' with h' | h' | h'
      · exact Or.inl (List.infix_cons h')
      · exact Or.inr (Or.inl (List.infix_cons h'))
      · exact Or.inr (Or.inr (List.infix_cons h'))
    rw [escape_cons]
    unfold escChar
    split
    · rename_i e; subst e
      show '<' :: decode (escape s) = _
      rw [ih hs]
    · split
      · rename_i e; subst e
        show '>' :: decode (escape s) = _
        rw [ih hs]
      · split
        · rename_i e; subst e
          show '|' :: decode (escape s) = _
          rw [ih hs]
        · rw [List.singleton_append, decode_cons, ih hs]
          rintro ⟨hx, hp⟩
          subst hx
          refine h ?_
          unfold HasEntity
          rcases hp with hp | hp | hp
          · exact Or.inl (List.prefix_append_right_inj ['&'] |>.2
              (escape_prefix (by decide) hp)).isInfix
          · exact Or.inr (Or.inl (List.prefix_append_right_inj ['&'] |>.2
              (escape_prefix (by decide) hp)).isInfix)
          · exact Or.inr (Or.inr (List.prefix_append_right_inj ['&'] |>.2
              (escape_prefix (by decide) hp)).isInfix)

/-! ## The statements at work -/

example : docsText [.other, .doc (lit "  "), .doc (lit " Hello"), .doc [], .doc (lit " world \t"), .doc []] =
    some (lit "/**\n* Hello\n* \n* world\n*/\n") := by decide +kernel

example : docsText [.doc (lit " a\r\n   b\n")] = some (lit "/**\n* a\n*    b\n*/\n") := by decide +kernel

example : escape (lit "HashMap<K|V>&lt") = lit "HashMap&lt;K&#124;V&gt;&lt" ∧
    ¬ HasEntity (lit "HashMap<K|V>&lt") := by
  refine ⟨by decide +kernel, ?_⟩
  unfold HasEntity
  decide +kernel

/-- The proviso of `C16_decodes` is needed. -/
example : decode (escape (lit "&lt;")) = lit "<" := by decide +kernel

end Verif.Props
