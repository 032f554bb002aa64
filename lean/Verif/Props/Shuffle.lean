import Verif.Zod.Shuffle
import Verif.Props.Reorder

/-!
# C86: the order of variants
-/

namespace Verif.Props
open Verif Verif.Schema Verif.SchemaSpec Verif.Js Verif.Spec Verif.Zod

/-- **C86, acceptance.** Let the variants of enums be written in another order, or named fields. Then evaluating the schema of a type
throws for both programs or for neither. If it throws for neither, no value is accepted by one of the two schemas and rejected by
the other. -/
theorem C86_acceptance (P P' : Program) (hP : ShuffledProgram (fun _ => True) P P') (hg : GoodNames P) (hw : WellStyled P)
    (hg' : GoodNames P') (hw' : WellStyled P') (E E' : ZEnv) (hE : IsModule P E) (hE' : IsModule P' E') (m : Method)
    (hm : m = .schema ∨ m = .inlineSchema) (t : Ty) (s s' : Str) (h : Returns P m t s) (h' : Returns P' m t s') :
    (readSchema s = none ↔ readSchema s' = none) ∧
    ∀ z z', readSchema s = some z → readSchema s' = some z' → ∀ v,
      (∀ r, ParsesTo E z v r → ¬ Rejects E' z' v) ∧ (∀ r', ParsesTo E' z' v r' → ¬ Rejects E z v) := by
  have hT : ∀ tag, (fun _ : Tag => True) tag → True ∨ HasTag tag := fun _ _ => .inl trivial
  have hL := reord_linked hT hP hg hw hg' hw' hE hE'
  rcases reord_texts hT hP hg hw hg' hw' hm h h' with ⟨e, e'⟩ | ⟨z, z', e, e', hr⟩
  · refine ⟨by simp [e, e'], fun z z' hz => ?_⟩
    rw [e] at hz
    cases hz
  · refine ⟨by simp [e, e'], fun a a' ha ha' v => ?_⟩
    cases e.symm.trans ha
    cases e'.symm.trans ha'
    refine ⟨?_, ?_⟩
    · rintro r ⟨n, hn⟩ ⟨n', hn'⟩
      cases reord_alike hL n n' z z' hr v _ _ hn hn'
    · rintro r ⟨n', hn'⟩ ⟨n, hn⟩
      cases reord_alike hL n n' z z' hr v _ _ hn hn'

/-- **C86, tagged enums.** If only the variants of internally and adjacently tagged enums are in another order, the schemas accept the
same values, the results are the same up to the order of properties, and they reject the same values. -/
theorem C86_same_values (P P' : Program) (hP : ShuffledProgram HasTag P P') (hg : GoodNames P) (hw : WellStyled P)
    (hg' : GoodNames P') (hw' : WellStyled P') (E E' : ZEnv) (hE : IsModule P E) (hE' : IsModule P' E') (m : Method)
    (hm : m = .schema ∨ m = .inlineSchema) (t : Ty) (s s' : Str) (h : Returns P m t s) (h' : Returns P' m t s') :
    (readSchema s = none ↔ readSchema s' = none) ∧
    ∀ z z', readSchema s = some z → readSchema s' = some z' → ∀ v,
      (∀ r, ParsesTo E z v r → ∃ r', ParsesTo E' z' v r' ∧ SameProps r r') ∧
      (∀ r', ParsesTo E' z' v r' → ∃ r, ParsesTo E z v r ∧ SameProps r r') ∧
      (Rejects E z v ↔ Rejects E' z' v) := by
  have hT : ∀ tag, HasTag tag → False ∨ HasTag tag := fun _ h => .inr h
  have hL := reord_linked hT hP hg hw hg' hw' hE hE'
  rcases reord_texts hT hP hg hw hg' hw' hm h h' with ⟨e, e'⟩ | ⟨z, z', e, e', hr⟩
  · refine ⟨by simp [e, e'], fun z z' hz => ?_⟩
    rw [e] at hz
    cases hz
  · refine ⟨by simp [e, e'], fun a a' ha ha' v => ?_⟩
    cases e.symm.trans ha
    cases e'.symm.trans ha'
    have hp := fun n => reord_parse id hL n z z' hr v
    refine ⟨?_, ?_, ?_, ?_⟩
    · rintro r ⟨n, hn⟩
      have := hp n
      rw [hn] at this
      generalize hx : parse E' n z' v = x at this
      cases this with
      | result h => exact ⟨_, ⟨n, hx⟩, h⟩
    · rintro r ⟨n, hn⟩
      have := hp n
      rw [hn] at this
      generalize hx : parse E n z v = x at this
      cases this with
      | result h => exact ⟨_, ⟨n, hx⟩, h⟩
    · rintro ⟨n, hn⟩
      have := hp n
      rw [hn] at this
      generalize hx : parse E' n z' v = x at this
      cases this with
      | error => exact ⟨n, hx⟩
    · rintro ⟨n, hn⟩
      have := hp n
      rw [hn] at this
      generalize hx : parse E n z v = x at this
      cases this with
      | error => exact ⟨n, hx⟩

/-- **C86, generation.** Whether generating the text of a type returns does not depend on the order of variants, for all four methods. -/
theorem C86_returns (P P' : Program) (hP : ShuffledProgram (fun _ => True) P P') (m : Method) (t : Ty) :
    (∃ s, Returns P m t s) ↔ ∃ s, Returns P' m t s :=
  ⟨fun ⟨s, n, hn⟩ => shuffled_returns hP n m t s hn, fun ⟨s, n, hn⟩ => shuffled_returns (shuffledProgram_symm hP) n m t s hn⟩

/-- **C86, compilation.** The derive macro accepts an enum with the variants in both orders or in neither. -/
theorem C86_derives (e : EnumDecl) (vs : List Variant) (h : e.variants.Perm vs) :
    (∃ impl, derive (.enum e) = .ok impl) ↔ ∃ impl, derive (.enum { e with variants := vs }) = .ok impl :=
  ⟨fun ⟨_, hi⟩ => (follows_shuffled (.variants (T := fun _ => True) e vs trivial h) hi).imp (fun _ h => h.1),
    fun ⟨_, hi⟩ => (follows_shuffled (.variants (T := fun _ => True) { e with variants := vs } e.variants trivial h.symm) hi).imp (fun _ h => h.1)⟩

theorem shuffled_read {T : Tag → Prop} {P P' : Program} (hP : ShuffledProgram T P P')
    (hn : ∀ e, Decl.enum e ∈ P' → (e.variants.map (·.name)).Nodup) {t : Ty} {j : Json} (h : De P t j) : De P' t j := by
  refine de_more (K := fun _ => False) ?_ h (lacks_nothing _)
  intro i d hd
  obtain ⟨d', h1, h2⟩ := shuffled_get hP hd
  refine ⟨d', h1, ?_⟩
  cases h2 with
  | fields h =>
    have := all2_fwd (reordered_same (.cons h .nil : ReorderedProgram [d] [d'])) 0 d rfl
    obtain ⟨d1, e1, h1⟩ := this
    cases e1
    exact h1
  | variants e vs _ hp =>
    have nd := hn _ (List.mem_of_getElem? h1)
    refine .enum _ _ rfl rfl rfl (fun v hf => ?_) (fun v hm _ => ⟨v, hp.mem_iff.1 hm, .same v⟩)
    have hk := List.mem_filter.1 (List.mem_of_find?_eq_some hf)
    have hs : v.skipDe = false := by simpa using hk.2
    exact ⟨v, first_of_names nd (hp.mem_iff.1 hk.1) hs, .same v⟩

/-- **C86, the server.** If the variants of each enum have different names, serde accepts the same documents for both programs, where
structs and variants with named fields are read from objects. -/
theorem C86_read (P P' : Program) (hP : ShuffledProgram (fun _ => True) P P')
    (hn : ∀ e, Decl.enum e ∈ P → (e.variants.map (·.name)).Nodup) (hn' : ∀ e, Decl.enum e ∈ P' → (e.variants.map (·.name)).Nodup)
    (t : Ty) (j : Json) : De P t j ↔ De P' t j :=
  ⟨shuffled_read hP hn', shuffled_read (shuffledProgram_symm hP) hn⟩

/-! ## Where the result does depend on the order -/

/-- `enum Event { Move { x: i32 }, Turn { y: i32 } }`. -/
def exOrder : Program :=
  [ .enum (exEnum "Event" .external [exVariant "Move" .named [exField "x" (.prim .i32)], exVariant "Turn" .named [exField "y" (.prim .i32)]]) ]

/-- `enum Event { Turn { y: i32 }, Move { x: i32 } }`. -/
def exOrder' : Program :=
  [ .enum (exEnum "Event" .external [exVariant "Turn" .named [exField "y" (.prim .i32)], exVariant "Move" .named [exField "x" (.prim .i32)]]) ]

theorem exOrder_shuffled : ShuffledProgram (fun _ => True) exOrder exOrder' :=
  .cons (.variants (exEnum "Event" .external [exVariant "Move" .named [exField "x" (.prim .i32)],
    exVariant "Turn" .named [exField "y" (.prim .i32)]]) _ trivial (.swap _ _ _)) .nil

theorem exOrder_good : GoodNames exOrder := by
  intro d hd
  simp only [exOrder, List.mem_cons, List.not_mem_nil, or_false] at hd
  subst hd; decide +kernel

theorem exOrder_good' : GoodNames exOrder' := by
  intro d hd
  simp only [exOrder', List.mem_cons, List.not_mem_nil, or_false] at hd
  subst hd; decide +kernel

theorem exOrder_styled : WellStyled exOrder := by
  intro d hd
  simp only [exOrder, List.mem_cons, List.not_mem_nil, or_false] at hd
  subst hd; decide +kernel

theorem exOrder_styled' : WellStyled exOrder' := by
  intro d hd
  simp only [exOrder', List.mem_cons, List.not_mem_nil, or_false] at hd
  subst hd; decide +kernel

theorem exOrder_module : IsModule exOrder (moduleEnv exOrder 9) := by
  refine moduleEnv_isModule exOrder_good exOrder_styled (by unfold DistinctDecls; decide +kernel) ?_
  intro i d hd
  match i, hd with
  | 0, _ => exact ⟨_, rfl⟩
  | n + 1, hd => simp [exOrder] at hd

theorem exOrder_module' : IsModule exOrder' (moduleEnv exOrder' 9) := by
  refine moduleEnv_isModule exOrder_good' exOrder_styled' (by unfold DistinctDecls; decide +kernel) ?_
  intro i d hd
  match i, hd with
  | 0, _ => exact ⟨_, rfl⟩
  | n + 1, hd => simp [exOrder'] at hd

/-- `{ Move: { x: 1 }, Turn: { y: 2 } }`. -/
def exBothKeys : JsVal := .obj [(lit "Move", .obj [(lit "x", .num (.fin 1))]), (lit "Turn", .obj [(lit "y", .num (.fin 2))])]

/-- **C86, why `C86_same_values` is about tagged enums.** The two schemas of this externally tagged enum accept the same object
with different results: each keeps the variant which is written first. -/
theorem C86_external_results_differ : ∃ s s' z z', Returns exOrder .schema (.named 0) s ∧ Returns exOrder' .schema (.named 0) s' ∧
    readSchema s = some z ∧ readSchema s' = some z' ∧
    ParsesTo (moduleEnv exOrder 9) z exBothKeys (.obj [(lit "Move", .obj [(lit "x", .num (.fin 1))])]) ∧
    ParsesTo (moduleEnv exOrder' 9) z' exBothKeys (.obj [(lit "Turn", .obj [(lit "y", .num (.fin 2))])]) := by
  have h0 : ∃ s, eval exOrder 9 .schema (.named 0) = some s := ⟨_, rfl⟩
  have h0' : ∃ s, eval exOrder' 9 .schema (.named 0) = some s := ⟨_, rfl⟩
  obtain ⟨s, hs⟩ := h0
  obtain ⟨s', hs'⟩ := h0'
  have hz := (eval_agree exOrder_good exOrder_styled 9 .schema (.named 0) s (Or.inl rfl) hs).read
  have hz' := (eval_agree exOrder_good' exOrder_styled' 9 .schema (.named 0) s' (Or.inl rfl) hs').read
  have h1 : ∃ z, zOf exOrder 9 .schema (.named 0) = some z ∧ parse (moduleEnv exOrder 9) 9 z exBothKeys =
    some (some (.obj [(lit "Move", .obj [(lit "x", .num (.fin 1))])])) := ⟨_, rfl, rfl⟩
  have h2 : ∃ z, zOf exOrder' 9 .schema (.named 0) = some z ∧ parse (moduleEnv exOrder' 9) 9 z exBothKeys =
    some (some (.obj [(lit "Turn", .obj [(lit "y", .num (.fin 2))])])) := ⟨_, rfl, rfl⟩
  obtain ⟨z, e, hr⟩ := h1
  obtain ⟨z', e', hr'⟩ := h2
  rw [e] at hz; rw [e'] at hz'
  exact ⟨s, s', z, z', ⟨9, hs⟩, ⟨9, hs'⟩, hz, hz', ⟨9, hr⟩, ⟨9, hr'⟩⟩

/-! ## The hypotheses are met -/

/-- Neither of the two schemas rejects the object, by `C86_acceptance`. -/
example : ∃ s s' z z', Returns exOrder .schema (.named 0) s ∧ Returns exOrder' .schema (.named 0) s' ∧
    readSchema s = some z ∧ readSchema s' = some z' ∧ ¬ Rejects (moduleEnv exOrder' 9) z' exBothKeys := by
  obtain ⟨s, s', z, z', h1, h2, h3, h4, h5, _⟩ := C86_external_results_differ
  exact ⟨s, s', z, z', h1, h2, h3, h4, ((C86_acceptance exOrder exOrder' exOrder_shuffled exOrder_good exOrder_styled exOrder_good'
    exOrder_styled' _ _ exOrder_module exOrder_module' .schema (Or.inl rfl) (.named 0) s s' h1 h2).2 z z' h3 h4 exBothKeys).1 _ h5⟩

/-- `exAfter` with the variants of `Event` in the other order. -/
def exSwapped : Program :=
  [ .struct (exStruct "User" [exField "id" (.prim .u32), { exField "nick" (.prim .string) with dflt := true }, exField "last" (.named 1)]),
    .enum (exEnum "Event" (.internal (lit "type")) [exVariant "Move" .named [exField "x" (.prim .i32), { exField "y" (.prim .i32) with dflt := true }],
      exVariant "Start" .unit []]) ]

theorem exAfter_swapped : ShuffledProgram HasTag exAfter exSwapped := by
  refine .cons (.fields (.same _)) (.cons ?_ .nil)
  exact .variants (exEnum "Event" (.internal (lit "type")) [exVariant "Start" .unit [],
    exVariant "Move" .named [exField "x" (.prim .i32), { exField "y" (.prim .i32) with dflt := true }]]) _ (.inl ⟨_, rfl⟩) (.swap _ _ _)

theorem exSwapped_good : GoodNames exSwapped := by
  intro d hd
  simp only [exSwapped, List.mem_cons, List.not_mem_nil, or_false] at hd
  rcases hd with rfl | rfl <;> decide +kernel

theorem exSwapped_styled : WellStyled exSwapped := by
  intro d hd
  simp only [exSwapped, List.mem_cons, List.not_mem_nil, or_false] at hd
  rcases hd with rfl | rfl <;> decide +kernel

theorem exSwapped_module : IsModule exSwapped (moduleEnv exSwapped 9) := by
  refine moduleEnv_isModule exSwapped_good exSwapped_styled (by unfold DistinctDecls; decide +kernel) ?_
  intro i d hd
  match i, hd with
  | 0, _ => exact ⟨_, rfl⟩
  | 1, _ => exact ⟨_, rfl⟩
  | n + 2, hd => simp [exSwapped] at hd

/-- The user with the old event is accepted in both orders. -/
example : ∃ s s' z z' r', Returns exAfter .schema (.named 0) s ∧ Returns exSwapped .schema (.named 0) s' ∧
    readSchema s = some z ∧ readSchema s' = some z' ∧ ParsesTo (moduleEnv exAfter 9) z exOldUser exOldUser ∧
    ParsesTo (moduleEnv exSwapped 9) z' exOldUser r' ∧ SameProps exOldUser r' := by
  have h0 : ∃ s, eval exAfter 9 .schema (.named 0) = some s := ⟨_, rfl⟩
  have h0' : ∃ s, eval exSwapped 9 .schema (.named 0) = some s := ⟨_, rfl⟩
  obtain ⟨s, hs⟩ := h0
  obtain ⟨s', hs'⟩ := h0'
  have hz := (eval_agree exAfter_good exAfter_styled 9 .schema (.named 0) s (Or.inl rfl) hs).read
  have hz' := (eval_agree exSwapped_good exSwapped_styled 9 .schema (.named 0) s' (Or.inl rfl) hs').read
  have h1 : ∃ z, zOf exAfter 9 .schema (.named 0) = some z ∧ parse (moduleEnv exAfter 9) 9 z exOldUser = some (some exOldUser) :=
    ⟨_, rfl, rfl⟩
  have h2 : ∃ z', zOf exSwapped 9 .schema (.named 0) = some z' := ⟨_, rfl⟩
  obtain ⟨z, e, hr⟩ := h1
  obtain ⟨z', e'⟩ := h2
  rw [e] at hz; rw [e'] at hz'
  obtain ⟨r', hr', hsame⟩ := ((C86_same_values exAfter exSwapped exAfter_swapped exAfter_good exAfter_styled exSwapped_good
    exSwapped_styled _ _ exAfter_module exSwapped_module .schema (Or.inl rfl) (.named 0) s s' ⟨9, hs⟩ ⟨9, hs'⟩).2 z z' hz hz' exOldUser).1 _ ⟨9, hr⟩
  exact ⟨s, s', z, z', r', ⟨9, hs⟩, ⟨9, hs'⟩, hz, hz', ⟨9, hr⟩, hr', hsame⟩

/-- serde goes on to accept the old document. -/
example : De exSwapped (.named 0) exOldDoc := by
  refine (C86_read exAfter exSwapped ?_ ?_ ?_ (.named 0) exOldDoc).1
    ((C78_read exNew exBefore exAfter exBefore_after (.named 0) exOldDoc exOldDoc_lacks).1 exOldDoc_read)
  · refine .cons (.fields (.same _)) (.cons ?_ .nil)
    exact .variants (exEnum "Event" (.internal (lit "type")) [exVariant "Start" .unit [],
      exVariant "Move" .named [exField "x" (.prim .i32), { exField "y" (.prim .i32) with dflt := true }]]) _ trivial (.swap _ _ _)
  · intro e he
    simp only [exAfter, List.mem_cons, List.not_mem_nil, or_false] at he
    rcases he with he | he <;> cases he
    decide +kernel
  · intro e he
    simp only [exSwapped, List.mem_cons, List.not_mem_nil, or_false] at he
    rcases he with he | he <;> cases he
    decide +kernel

/-- An enum of two variants in both orders. -/
example : ∃ impl, derive (.enum (exEnum "Event" .external [exVariant "Turn" .unit [], exVariant "Move" .unit []])) = .ok impl :=
  (C86_derives (exEnum "Event" .external [exVariant "Move" .unit [], exVariant "Turn" .unit []]) _ (.swap _ _ _)).1 ⟨_, rfl⟩

end Verif.Props
