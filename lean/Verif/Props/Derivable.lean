import Verif.Props.Schema
import Verif.Props.Docs
import Verif.Spec.Derivable
import Verif.Spec.Serde

/-!
# C84: the derive macro refuses only what it cannot support, and says why

Specification: `Verif/Spec/Derivable.lean`.
-/

namespace Verif.Props
open Verif Verif.Schema Verif.SchemaSpec Verif.Spec

/-- C84 in full: whenever the macro refuses a declaration (with attributes that can be parsed), it reports one of the
documented limits, and that limit applies. -/
def C84_statement : Prop :=
  ∀ (d : Decl) (err : DeriveErr), Derive.Attr.unparsable ∉ d.attrs → derive d = .error err → Reports d err

/-- The outcome for a struct. -/
theorem structSchema_cases (s : StructDecl) (hs : s.style ≠ .unit) :
    (∃ p q, structSchema s = .ok p ∧ structTypeDef s = .ok q ∧ ¬ Crashes (.struct s) ∧
      ¬ Reports (.struct s) .nonDefaultAfterDefault) ∨
    (structSchema s = .error .panic ∧ Crashes (.struct s) ∧ ¬ Reports (.struct s) .nonDefaultAfterDefault) ∨
    (structSchema s = .error .nonDefaultAfterDefault ∧ ¬ Crashes (.struct s) ∧
      Reports (.struct s) .nonDefaultAfterDefault) := by
  have hown : (structFields s).filter (fun f => !f.flatten) = (ownFields s.fields).map (SField.ofField s.transparent) := by
    unfold structFields ownFields
    rw [List.filter_map, List.filter_filter]
    congr 1
    apply List.filter_congr
    intro f _
    simp [SField.ofField, Bool.and_comm]
  have hrep : Reports (.struct s) .nonDefaultAfterDefault ↔ s.style = .tuple ∧ s.transparent = false ∧
      ∃ a f b g c, ownFields s.fields = a ++ f :: b ++ g :: c ∧ f.dflt = true ∧ g.dflt = false := by
    constructor
    · rintro ⟨⟩
      exact ⟨‹_›, ‹_›, _, _, _, _, _, ‹_›, ‹_›, ‹_›⟩
    · rintro ⟨h1, h2, a, f, b, g, c, h3, h4, h5⟩
      exact .order s a b c f g h1 h2 h3 h4 h5
  have hcr : Crashes (.struct s) ↔ (s.transparent = true ∨ s.style = .tuple) ∧ ownFields s.fields = [] := by
    constructor
    · intro h
      cases h with
      | transparent _ _ h1 h2 => exact ⟨.inl h1, h2⟩
      | tuple _ h1 h2 => exact ⟨.inr h1, h2⟩
    · rintro ⟨h1 | h1, h2⟩
      · exact .transparent s hs h1 h2
      · exact .tuple s h1 h2
  rw [hrep, hcr]
  unfold structSchema structTypeDef
  simp only [hown]
  cases ht : s.transparent with
  | true =>
    cases ho : ownFields s.fields with
    | nil => simp
    | cons x l => simp
  | false =>
    cases hst : s.style with
    | unit => exact absurd hst hs
    | named => simp
    | tuple =>
      match ho : ownFields s.fields with
      | [] => simp
      | [x] =>
        left
        refine ⟨_, _, rfl, rfl, by simp, ?_⟩
        rintro ⟨_, _, a, f, b, g, c, h, _, _⟩
        have := congrArg List.length h
        simp at this
        omega
      | x :: y :: l =>
        have hbad := badDefault_iff (((x :: y :: l).map (SField.ofField false)))
        have hiff : (∃ a f b g c, (x :: y :: l).map (SField.ofField false) = a ++ f :: b ++ g :: c ∧ f.optional = true ∧ g.optional = false) ↔
            ∃ a f b g c, x :: y :: l = a ++ f :: b ++ g :: c ∧ f.dflt = true ∧ g.dflt = false := by
          constructor
          · rintro ⟨a, f, b, g, c, h, hf, hg⟩
            obtain ⟨a', f', b', g', c', e, e1, e2⟩ := map_split h
            subst e1 e2
            exact ⟨a', f', b', g', c', e, hf, hg⟩
          · rintro ⟨a, f, b, g, c, h, hf, hg⟩
            exact ⟨_, SField.ofField false f, _, SField.ofField false g, _, by rw [h]; simp; rfl, hf, hg⟩
        rw [hiff] at hbad
        simp only [List.map_cons] at hbad ⊢
        by_cases hb : (badDefault (SField.ofField false x :: SField.ofField false y :: l.map (SField.ofField false))).isSome = true
        · right; right
          refine ⟨?_, by simp, trivial, trivial, hbad.1 hb⟩
          simp only [if_pos hb]
        · left
          simp only [if_neg hb]
          exact ⟨_, _, rfl, rfl, by simp, fun h => hb (hbad.2 h.2.2)⟩

theorem allOk_cases {α β : Type} (l : List β) (f : β → Except DeriveErr α) (hf : ∀ x ∈ l, (∃ a, f x = .ok a) ∨ f x = .error .panic) :
    ((∃ r, allOk (l.map f) = .ok r) ∧ ∀ x ∈ l, ∃ a, f x = .ok a) ∨
    (allOk (l.map f) = .error .panic ∧ ∃ x ∈ l, f x = .error .panic) := by
  induction l with
  | nil => left; simp [allOk]
  | cons x l ih =>
    rcases hf x (by simp) with ⟨a, ha⟩ | ha
    · rcases ih (fun y hy => hf y (by simp [hy])) with ⟨⟨r, hr⟩, h⟩ | ⟨hr, y, hy, h⟩
      · left
        refine ⟨⟨a :: r, by simp [allOk, ha, hr]⟩, ?_⟩
        intro y hy
        rcases List.mem_cons.1 hy with rfl | hy
        · exact ⟨a, ha⟩
        · exact h y hy
      · right
        exact ⟨by simp [allOk, ha, hr], y, by simp [hy], h⟩
    · right
      exact ⟨by simp [allOk, ha], x, by simp, ha⟩

/-- A variant without anything to read between its braces. -/
private def hollow (v : Variant) : Prop := v.style = .named ∧ ∀ f ∈ v.fields, f.skipDe = true

private theorem kept_nil (v : Variant) : v.kept = [] ↔ ∀ f ∈ v.fields, f.skipDe = true := by
  unfold Variant.kept
  rw [List.filter_eq_nil_iff]
  simp

private theorem variant_cases (tag : Tag) (v : Variant) :
    (¬ hollow v ∧ (∃ p, variantSchema tag v = .ok p) ∧ ∃ q, variantTypeDef tag v = .ok q) ∨
    (hollow v ∧ variantSchema tag v = .error .panic ∧ variantTypeDef tag v = .error .panic) := by
  unfold hollow variantSchema variantTypeDef structVariantSchema structVariantTypeDef
  rw [← kept_nil]
  cases v.style <;> cases v.kept <;> simp

/-- The outcome for an enum. -/
theorem enumSchema_cases (e : EnumDecl) :
    (∃ p q, enumSchema e = .ok p ∧ enumTypeDef e = .ok q ∧ ¬ Crashes (.enum e) ∧ ¬ Reports (.enum e) .emptyEnum) ∨
    (enumSchema e = .error .panic ∧ Crashes (.enum e) ∧ ¬ Reports (.enum e) .emptyEnum) ∨
    (enumSchema e = .error .emptyEnum ∧ ¬ Crashes (.enum e) ∧ Reports (.enum e) .emptyEnum) := by
  have hrep : Reports (.enum e) .emptyEnum ↔ e.kept = [] := by
    unfold EnumDecl.kept
    rw [List.filter_eq_nil_iff]
    constructor
    · rintro ⟨⟩
      rename_i h
      simpa using h
    · intro h
      exact .empty e (by simpa using h)
  have hcr : Crashes (.enum e) ↔ ∃ v ∈ e.kept, hollow v := by
    constructor
    · intro h
      cases h with | variant _ v h1 h2 h3 h4 =>
      exact ⟨v, List.mem_filter.2 ⟨h1, by simp [h2]⟩, h3, h4⟩
    · rintro ⟨v, hv, h3, h4⟩
      obtain ⟨h1, h2⟩ := List.mem_filter.1 hv
      exact .variant e v h1 (by simpa using h2) h3 h4
  rw [hrep, hcr]
  unfold enumSchema enumTypeDef
  match hk : e.kept with
  | [] => right; right; simp
  | [v] =>
    rcases variant_cases e.tag v with ⟨h1, ⟨p, h2⟩, q, h3⟩ | ⟨h1, h2, h3⟩
    · left; simp [h1, h2, h3]
    · right; left; simp [h1, h2]
  | v :: w :: r =>
    have h1 := allOk_cases (v :: w :: r) (variantSchema e.tag) (fun x _ => by
      rcases variant_cases e.tag x with h | h
      · exact .inl h.2.1
      · exact .inr h.2.1)
    have h2 := allOk_cases (v :: w :: r) (variantTypeDef e.tag) (fun x _ => by
      rcases variant_cases e.tag x with h | h
      · exact .inl h.2.2
      · exact .inr h.2.2)
    rcases h1 with ⟨⟨p, hp⟩, hall⟩ | ⟨hp, x, hx, hxe⟩
    · left
      have hno : ¬ ∃ x ∈ v :: w :: r, hollow x := by
        rintro ⟨x, hx, hh⟩
        obtain ⟨a, ha⟩ := hall x hx
        rcases variant_cases e.tag x with h | h
        · exact h.1 hh
        · rw [h.2.1] at ha; cases ha
      rcases h2 with ⟨⟨q, hq⟩, _⟩ | ⟨_, x, hx, hxe⟩
      · simp only [List.map_cons] at hp hq
        simp only [List.map_cons, hp, hq]
        exact ⟨_, _, rfl, rfl, hno, by simp⟩
      · exfalso
        rcases variant_cases e.tag x with h | h
        · obtain ⟨q, hq⟩ := h.2.2
          rw [hq] at hxe; cases hxe
        · exact hno ⟨x, hx, h.1⟩
    · right; left
      simp only [List.map_cons] at hp
      simp only [List.map_cons, hp]
      refine ⟨trivial, ⟨x, hx, ?_⟩, by simp⟩
      rcases variant_cases e.tag x with h | h
      · obtain ⟨q, hq⟩ := h.2.1
        rw [hq] at hxe; cases hxe
      · exact h.1

/-- **C84, exact.** For every declaration whose attributes can be parsed: deriving fails with a message exactly if the
limit it reports applies; it panics exactly for the declarations of `Crashes`; and it succeeds in all other cases. -/
theorem C84_exact (d : Decl) (ha : Derive.Attr.unparsable ∉ d.attrs) :
    (∀ err, err ≠ .panic → (derive d = .error err ↔ Reports d err)) ∧
    (derive d = .error .panic ↔ Crashes d) ∧
    ((∃ impl, derive d = .ok impl) ↔ (∀ err, ¬ Reports d err) ∧ ¬ Crashes d) := by
  have hdocs : ∃ docs, Derive.docsText d.attrs = some docs := by
    cases h : Derive.docsText d.attrs with
    | some x => exact ⟨x, rfl⟩
    | none => exact absurd ((C15_fails_iff _).1 h) ha
  obtain ⟨docs, hdocs⟩ := hdocs
  cases d with
  | struct s =>
    replace hdocs : Derive.docsText s.attrs = some docs := hdocs
    have hother : ∀ err, Reports (.struct s) err → (s.style = .unit ∧ err = .unsupportedShape) ∨
        (s.style = .tuple ∧ err = .nonDefaultAfterDefault ∧ Reports (.struct s) .nonDefaultAfterDefault) := by
      intro err h
      cases h with
      | unit _ h => exact .inl ⟨h, rfl⟩
      | order _ a b c f g h1 h2 h3 h4 h5 => exact .inr ⟨h1, rfl, .order s a b c f g h1 h2 h3 h4 h5⟩
    unfold derive deriveStruct
    simp only [hdocs]
    by_cases hu : s.style = .unit
    · have hc : ¬ Crashes (.struct s) := by
        intro h
        cases h with
        | transparent _ h _ _ => exact h hu
        | tuple _ h _ => rw [hu] at h; cases h
      simp only [if_pos hu]
      refine ⟨fun err _ => ⟨fun h => ?_, fun h => ?_⟩, by simp [hc], ?_⟩
      · cases h; exact .unit s hu
      · rcases hother err h with ⟨_, rfl⟩ | ⟨h, _, _⟩
        · rfl
        · rw [hu] at h; cases h
      · constructor
        · rintro ⟨_, h⟩; cases h
        · rintro ⟨h, _⟩; exact absurd (.unit s hu) (h _)
    · simp only [if_neg hu]
      rcases structSchema_cases s hu with ⟨p, q, h1, h2, h3, h4⟩ | ⟨h1, h3, h4⟩ | ⟨h1, h3, h4⟩
      · have hok : ∃ impl, deriveStruct s = .ok impl := by
          unfold deriveStruct
          simp only [hdocs, if_neg hu, h1, h2]
          cases s.from_.ty? with
          | none => exact ⟨_, rfl⟩
          | some _ => exact ⟨_, rfl⟩
        have hno : ∀ err, ¬ Reports (.struct s) err := by
          intro err h
          rcases hother err h with ⟨h, _⟩ | ⟨_, _, h⟩
          · exact hu h
          · exact h4 h
        unfold deriveStruct at hok
        simp only [hdocs, if_neg hu] at hok
        obtain ⟨impl, hok⟩ := hok
        rw [hok]
        simp [hno, h3]
      · have hno : ∀ err, ¬ Reports (.struct s) err := by
          intro err h
          rcases hother err h with ⟨h, _⟩ | ⟨_, _, h⟩
          · exact hu h
          · exact h4 h
        simp only [h1]
        refine ⟨fun err he => ?_, by simp [h3], by simp [h3]⟩
        simp [hno err, Ne.symm he]
      · simp only [h1]
        refine ⟨fun err _ => ⟨fun h => ?_, fun h => ?_⟩, by simp [h3], ?_⟩
        · cases h; exact h4
        · rcases hother err h with ⟨h, _⟩ | ⟨_, rfl, _⟩
          · exact absurd h hu
          · rfl
        · constructor
          · rintro ⟨_, h⟩; cases h
          · rintro ⟨h, _⟩; exact absurd h4 (h _)
  | enum e =>
    replace hdocs : Derive.docsText e.attrs = some docs := hdocs
    have hother : ∀ err, Reports (.enum e) err → err = .emptyEnum := by
      intro err h
      cases h; rfl
    unfold derive deriveEnum
    simp only [hdocs]
    rcases enumSchema_cases e with ⟨p, q, h1, h2, h3, h4⟩ | ⟨h1, h3, h4⟩ | ⟨h1, h3, h4⟩
    · have hok : ∃ impl, deriveEnum e = .ok impl := by
        unfold deriveEnum
        simp only [hdocs, h1, h2]
        cases e.from_.ty? with
        | none => exact ⟨_, rfl⟩
        | some _ => exact ⟨_, rfl⟩
      have hno : ∀ err, ¬ Reports (.enum e) err := by
        intro err h
        have := hother err h
        subst this
        exact h4 h
      unfold deriveEnum at hok
      simp only [hdocs] at hok
      obtain ⟨impl, hok⟩ := hok
      rw [hok]
      simp [hno, h3]
    · have hno : ∀ err, ¬ Reports (.enum e) err := by
        intro err h
        have := hother err h
        subst this
        exact h4 h
      simp only [h1]
      refine ⟨fun err he => ?_, by simp [h3], by simp [h3]⟩
      simp [hno err, Ne.symm he]
    · simp only [h1]
      refine ⟨fun err _ => ⟨fun h => ?_, fun h => ?_⟩, by simp [h3], ?_⟩
      · cases h; exact h4
      · rw [hother err h]
      · constructor
        · rintro ⟨_, h⟩; cases h
        · rintro ⟨h, _⟩; exact absurd h4 (h _)

/-- **C84, attributes.** The macro reports attributes that it cannot read, before anything else, and only those. -/
theorem C84_unreadable (d : Decl) : derive d = .error .unreadableAttrs ↔ Derive.Attr.unparsable ∈ d.attrs := by
  constructor
  · intro h
    apply Classical.byContradiction
    intro ha
    have := ((C84_exact d ha).1 .unreadableAttrs (by simp)).1 h
    cases this
  · intro ha
    have hn := (C15_fails_iff d.attrs).2 ha
    cases d with
    | struct s => replace hn : Derive.docsText s.attrs = none := hn; simp only [derive, deriveStruct, hn]
    | enum e => replace hn : Derive.docsText e.attrs = none := hn; simp only [derive, deriveEnum, hn]

/-- `#[doc = include_str!(..)] struct S;` is refused because of the attribute, not because of its shape. -/
example : derive (.struct { exStruct "S" [] with style := .unit, attrs := [.other, .unparsable] }) = .error .unreadableAttrs := rfl

/-- **C84, the part that holds.** For declarations other than those of `Crashes` the statement is true. Missing:
structs without remaining fields and struct variants without remaining fields, on which the macro panics. -/
theorem C84_partial (d : Decl) (err : DeriveErr) (ha : Derive.Attr.unparsable ∉ d.attrs) (hc : ¬ Crashes d)
    (h : derive d = .error err) : Reports d err := by
  obtain ⟨h1, h2, _⟩ := C84_exact d ha
  by_cases hp : err = .panic
  · subst hp
    exact absurd (h2.1 h) hc
  · exact (h1 err hp).1 h

/-- `enum E { A, V {} }` -/
def exHollow : EnumDecl where
  ns := lit "Ns"
  name := lit "E"
  attrs := []
  tag := .external
  from_ := .none
  into := none
  variants := [⟨lit "A", lit "A", false, false, .unit, []⟩, ⟨lit "V", lit "V", false, false, .named, []⟩]

/-- C84 is false of this code: on an enum with a variant `V {}` the macro panics ("Empty tuple structs are handled by
darling", `derive/src/impl_enum/variant/struct_variant.rs:19`; darling lets them pass), -/
theorem C84_violated : ¬ C84_statement := by
  intro h
  have := h (.enum exHollow) .panic (by simp [exHollow, Decl.attrs]) rfl
  cases this

/-- although serde reads such enums. -/
example : De [.enum exHollow] (.named 0) (.obj [(lit "V", .obj [])]) := by
  refine .external 0 exHollow ⟨lit "V", lit "V", false, false, .named, []⟩ (.obj []) rfl rfl rfl rfl ?_
  exact .named _ _ _ (by simp) (by simp [others, exHollow]) (by simp) (by simp)

/-- So does `struct S();`. -/
def exNothing : StructDecl := { exStruct "S" [] with style := .tuple }

example : derive (.struct exNothing) = .error .panic := rfl
example : De [.struct exNothing] (.named 0) (.arr []) := by
  refine .struct 0 exNothing _ rfl rfl rfl ?_
  exact .tuple _ _ _ (by decide) .nil

/-- The hypotheses of `C84_partial` and the three messages. -/
example : derive (.struct { exStruct "S" [] with style := .unit }) = .error .unsupportedShape ∧
    ¬ Crashes (.struct { exStruct "S" [] with style := .unit }) := by
  refine ⟨rfl, ?_⟩
  rintro ⟨⟩ <;> simp_all [exStruct]
example : derive (.enum { exHollow with variants := [] }) = .error .emptyEnum ∧
    ¬ Crashes (.enum { exHollow with variants := [] }) := by
  refine ⟨rfl, ?_⟩
  rintro ⟨⟩
  simp_all
example : derive (.struct { exStruct "S" [{ exField "a" (.prim .u8) with dflt := true }, exField "b" (.prim .bool)]
    with style := .tuple }) = .error .nonDefaultAfterDefault := rfl
/-- A default before a field without is fine if the latter is skipped. -/
example : ∃ impl, derive (.struct { exStruct "S" [{ exField "a" (.prim .u8) with dflt := true },
    { exField "b" (.prim .bool) with skipDe := true }, { exField "c" (.prim .u8) with dflt := true }]
    with style := .tuple }) = .ok impl := ⟨_, rfl⟩

end Verif.Props
