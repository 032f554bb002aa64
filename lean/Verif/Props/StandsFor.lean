import Verif.Zod.StandsFor
import Verif.Props.Boundary
import Verif.Props.Agree

/-!
# C90: a type and the type it stands for are interchangeable

Newtypes, `transparent` structs around one field, and types with `from` or `try_from`.
-/

namespace Verif.Props
open Verif Verif.Schema Verif.SchemaSpec Verif.Js Verif.Spec Verif.Zod Verif.Ts

/-- **C90, references.** Where a type is referred to, the schema gives the same results as the schema of the type itself, and the
TypeScript type has the same values. -/
theorem C90_reference (P : Program) (hg : GoodNames P) (hgt : GoodTypeNames P) (hw : WellStyled P) (E : ZEnv) (D : TsEnv)
    (hE : IsModule P E) (hD : IsTsModule P D) (t : Ty) :
    (∀ s s' z z', Returns P .schema t s → Returns P .inlineSchema t s' → readSchema s = some z → readSchema s' = some z' →
      ∀ v, (∀ r, ParsesTo E z v r ↔ ParsesTo E z' v r) ∧ (Rejects E z v ↔ Rejects E z' v)) ∧
    (∀ s s' a b, Returns P .typeDef t s → Returns P .inline t s' → readType s = some a → readType s' = some b →
      ∀ len v, Inhabits D len a v ↔ Inhabits D len b v) := by
  constructor
  · rintro s s' z z' h ⟨n, hn⟩ hz hz'
    exact inline_same hg hw hE n t s s' z z' h hn hz hz'
  · rintro s s' a b h ⟨n, hn⟩ ha hb len
    exact inline_sameT hg hgt hw hD n t s s' a b h hn ha hb

/-- **C90, schemas.** The schema of a type that stands for another gives the same results as that of the other. -/
theorem C90_schema (P : Program) (hv : Valid P) (hg : GoodNames P) (hw : WellStyled P) (E : ZEnv) (hE : IsModule P E) (i : Nat) (t : Ty)
    (hs : StandsFor P i t) (s s' : Str) (h : Returns P .schema (.named i) s) (h' : Returns P .schema t s') (z z' : ZSchema)
    (hz : readSchema s = some z) (hz' : readSchema s' = some z') (v : JsVal) :
    (∀ r, ParsesTo E z v r ↔ ParsesTo E z' v r) ∧ (Rejects E z v ↔ Rejects E z' v) := by
  rcases (standsFor_texts hw hv.1 hs).1 with hx | hx
  · obtain ⟨n, hn⟩ := hx s h
    have := inline_same hg hw hE n t s' s z' z h' hn hz' hz v
    exact ⟨fun r => (this.1 r).symm, this.2.symm⟩
  · have := returns_unique (hx s h) h'
    subst this
    rw [hz] at hz'
    cases hz'
    exact ⟨fun _ => .rfl, .rfl⟩

/-- **C90, types.** The TypeScript type of a type that stands for another has the same values as that of the other. -/
theorem C90_type (P : Program) (hv : Valid P) (hg : GoodNames P) (hgt : GoodTypeNames P) (hw : WellStyled P) (D : TsEnv)
    (hD : IsTsModule P D) (i : Nat) (t : Ty) (hs : StandsFor P i t) (s s' : Str) (h : Returns P .typeDef (.named i) s)
    (h' : Returns P .typeDef t s') (a b : TsType) (ha : readType s = some a) (hb : readType s' = some b) (len : Bool) (v : JsVal) :
    Inhabits D len a v ↔ Inhabits D len b v := by
  rcases (standsFor_texts hw hv.1 hs).2 with hx | hx
  · obtain ⟨n, hn⟩ := hx s h
    exact (inline_sameT hg hgt hw hD n t s' s b a h' hn hb ha v).symm
  · have := returns_unique (hx s h) h'
    subst this
    rw [ha] at hb
    cases hb
    exact .rfl

/-- **C90, serde.** serde reads the same documents as both types, unless the conversion may fail. -/
theorem C90_serde (P : Program) (i : Nat) (t : Ty) (hs : StandsFor P i t) (hf : ∀ d u, P[i]? = some d → Decl.from_ d ≠ .tryFrom u)
    (j : Json) : De P (.named i) j ↔ De P t j := by
  cases hs with
  | from_ d _ hd h =>
    refine ⟨fun hj => ?_, .from_ i d t j hd h⟩
    have hstruct : ∀ s, P[i]? = some (.struct s) → s.from_ = .none → False := by
      intro s h1 h2; rw [hd] at h1; cases h1; rw [show Decl.from_ (.struct s) = s.from_ from rfl, h2] at h; cases h
    have henum : ∀ s, P[i]? = some (.enum s) → s.from_ = .none → False := by
      intro s h1 h2; rw [hd] at h1; cases h1; rw [show Decl.from_ (.enum s) = s.from_ from rfl, h2] at h; cases h
    cases hj with
    | from_ _ d' u _ h1 h2 h3 => rw [hd] at h1; cases h1; rw [h] at h2; cases h2; exact h3
    | transparent _ s _ _ h1 h2 => exact (hstruct s h1 h2).elim
    | struct _ s _ h1 h2 => exact (hstruct s h1 h2).elim
    | _ => exact (henum _ (by assumption) (by assumption)).elim
  | tryFrom d _ hd h => exact absurd h (hf d t hd)
  | newtype s f hd hfr htr hst hfs hsk hdf hfl =>
    have hdeF : ∃ g : Field, StructDecl.deFields s = [g] ∧ g.ty = f.ty ∧ g.skipDe = false := by
      unfold StructDecl.deFields
      split
      · exact ⟨{ f with dflt := true }, by rw [hfs]; rfl, rfl, hsk⟩
      · exact ⟨f, hfs, rfl, hsk⟩
    obtain ⟨g, hg, hgt, hgs⟩ := hdeF
    constructor
    · intro hj
      have := de_struct hd hfr htr hj
      rw [hst, hg] at this
      cases this with
      | newtype _ _ _ _ h => rw [← hgt]; exact h
      | tuple _ _ _ h => simp at h
      | short _ _ _ _ _ h => simp at h
    · intro hj
      refine .struct i s j hd hfr htr ?_
      rw [hst, hg]
      exact .newtype _ g j hgs (by rw [hgt]; exact hj)
  | transparent s f hd hfr htr hk hdf hfl hph =>
    have hin := innerFields_only hk hdf hph
    refine ⟨fun hj => ?_, .transparent i s f j hd hfr htr hin⟩
    cases hj with
    | from_ _ d t _ h1 h2 => rw [hd] at h1; cases h1; rw [show Decl.from_ (.struct s) = s.from_ from rfl, hfr] at h2; cases h2
    | transparent _ s' f' _ h1 _ _ h4 h5 => rw [hd] at h1; cases h1; rw [hin] at h4; cases h4; exact h5
    | struct _ s' _ h1 _ h3 => rw [hd] at h1; cases h1; rw [htr] at h3; cases h3
    | _ => simp_all

/-- **C90, what serde writes.** If the attributes for writing are the counterparts of those for reading (`into` names the same type,
or there is neither `from` nor `into`, and a `transparent` struct writes the field it reads), serde writes the same documents for both types. -/
theorem C90_written (P : Program) (i : Nat) (t : Ty) (hs : StandsFor P i t)
    (hi : ∀ d, P[i]? = some d → Decl.into d = some t ∨ (Decl.from_ d = .none ∧ Decl.into d = none))
    (hser : ∀ s, P[i]? = some (.struct s) → serFields s.fields = keptFields s.fields) (odd : Bool) (j : Json) :
    Ser P odd (.named i) j ↔ Ser P odd t j := by
  have hd : ∃ d, P[i]? = some d := by cases hs <;> exact ⟨_, by assumption⟩
  obtain ⟨d, hd⟩ := hd
  rcases hi d hd with hin | ⟨hfr, hin⟩
  · refine ⟨fun hj => ?_, .into i d t j hd hin⟩
    have hstruct : ∀ s, P[i]? = some (.struct s) → s.into = none → False := by
      intro s h1 h2; rw [hd] at h1; cases h1; rw [show Decl.into (.struct s) = s.into from rfl, h2] at hin; cases hin
    have henum : ∀ s, P[i]? = some (.enum s) → s.into = none → False := by
      intro s h1 h2; rw [hd] at h1; cases h1; rw [show Decl.into (.enum s) = s.into from rfl, h2] at hin; cases hin
    cases hj with
    | into _ d' u _ h1 h2 h3 => rw [hd] at h1; cases h1; rw [hin] at h2; cases h2; exact h3
    | transparent _ s _ _ h1 h2 => exact (hstruct s h1 h2).elim
    | struct _ s _ h1 h2 => exact (hstruct s h1 h2).elim
    | _ => exact (henum _ (by assumption) (by assumption)).elim
  · cases hs with
    | from_ d' _ h1 h2 => rw [hd] at h1; cases h1; rw [hfr] at h2; cases h2
    | tryFrom d' _ h1 h2 => rw [hd] at h1; cases h1; rw [hfr] at h2; cases h2
    | newtype s f hd' _ htr hst hfs hsk _ _ =>
      rw [hd] at hd'
      cases hd'
      constructor
      · intro hj
        cases hj with
        | into _ d' u _ h1 h2 => rw [hd] at h1; cases h1; rw [hin] at h2; cases h2
        | transparent _ s' _ _ h1 _ h3 => rw [hd] at h1; cases h1; rw [htr] at h3; cases h3
        | struct _ s' _ h1 _ _ h4 =>
          rw [hd] at h1
          cases h1
          rw [hst, hfs] at h4
          cases h4 with
          | newtype _ _ h => exact h
          | tuple _ _ _ h => simp at h
        | _ => simp_all
      · intro hj
        exact .struct i s j hd hin htr (by rw [hst, hfs]; exact .newtype f j hj)
    | transparent s f hd' _ htr hk _ _ hph =>
      rw [hd] at hd'
      cases hd'
      have hin' : innerSer s.fields = [f] := by rw [innerSer, hser s hd, hk]; simp [hph]
      refine ⟨fun hj => ?_, .transparent i s f j hd hin htr hin'⟩
      cases hj with
      | into _ d' u _ h1 h2 => rw [hd] at h1; cases h1; rw [hin] at h2; cases h2
      | transparent _ s' f' _ h1 _ _ h4 h5 => rw [hd] at h1; cases h1; rw [hin'] at h4; cases h4; exact h5
      | struct _ s' _ h1 _ h3 => rw [hd] at h1; cases h1; rw [htr] at h3; cases h3
      | _ => simp_all

/-! ## An example -/

/-- `struct User { id: Id }`, `struct Id(u32);`, `#[serde(transparent)] struct Account { user: User }`,
`#[serde(try_from = "Account")] struct Checked { .. }`, `#[serde(from = "User")] enum Kind { .. }` -/
def exStand : Program :=
  [ .struct (exStruct "User" [exField "id" (.named 1)]),
    .struct (exTuple "Id" [exPos (.prim .u32)]),
    .struct { exStruct "Account" [exField "user" (.named 0)] with transparent := true },
    .struct { exStruct "Checked" [exField "a" (.prim .string)] with from_ := .tryFrom (.named 2) },
    .enum { exEnum "Kind" .external [exVariant "A" .unit []] with from_ := .from_ (.named 0) } ]

example : StandsFor exStand 1 (.prim .u32) := (.newtype 1 _ (exPos (.prim .u32)) rfl rfl rfl rfl rfl rfl rfl rfl)

example : StandsFor exStand 2 (.named 0) := (.transparent 2 _ (exField "user" (.named 0)) rfl rfl rfl rfl rfl rfl rfl)

example : StandsFor exStand 3 (.named 2) := .tryFrom 3 _ _ rfl rfl

example : StandsFor exStand 4 (.named 0) := .from_ 4 _ _ rfl rfl

theorem exStand_valid : Valid exStand := by
  constructor
  · intro d hd
    simp only [exStand, List.mem_cons, List.not_mem_nil, or_false] at hd
    rcases hd with rfl | rfl | rfl | rfl | rfl <;> exact ⟨_, rfl⟩
  · intro d hd
    simp only [exStand, List.mem_cons, List.not_mem_nil, or_false] at hd
    rcases hd with rfl | rfl | rfl | rfl | rfl <;>
      simp [declTypes, fieldTypes, exTuple, exStruct, exPos, exField, exEnum, exVariant, From.ty?, InScope.prim] <;>
      first | exact .named (by decide) | exact ⟨.named (by decide), .prim _⟩ | exact ⟨.prim _, .named (by decide)⟩ | skip

theorem exStand_good : GoodNames exStand := by
  intro d hd
  simp only [exStand, List.mem_cons, List.not_mem_nil, or_false] at hd
  rcases hd with rfl | rfl | rfl | rfl | rfl <;> decide +kernel

theorem exStand_styled : WellStyled exStand := by
  intro d hd
  simp only [exStand, List.mem_cons, List.not_mem_nil, or_false] at hd
  rcases hd with rfl | rfl | rfl | rfl | rfl <;> rfl

theorem exStand_types : GoodTypeNames exStand := by
  intro d hd
  simp only [exStand, List.mem_cons, List.not_mem_nil, or_false] at hd
  rcases hd with rfl | rfl | rfl | rfl | rfl <;> decide +kernel

theorem exStand_distinct : DistinctDecls exStand := by unfold DistinctDecls; decide +kernel

theorem exStand_module : IsModule exStand (moduleEnv exStand 9) := by
  refine moduleEnv_isModule exStand_good exStand_styled exStand_distinct (fun i d hd => ?_)
  match i, hd with
  | 0, _ => exact ⟨_, rfl⟩
  | 1, _ => exact ⟨_, rfl⟩
  | 2, _ => exact ⟨_, rfl⟩
  | 3, _ => exact ⟨_, rfl⟩
  | 4, _ => exact ⟨_, rfl⟩
  | n + 5, hd => simp [exStand] at hd

theorem exStand_tsModule : IsTsModule exStand (tsModule exStand 9) := by
  refine tsModule_ok exStand_distinct (fun i d hd => ?_)
  match i, hd with
  | 0, _ => exact ⟨_, rfl⟩
  | 1, _ => exact ⟨_, rfl⟩
  | 2, _ => exact ⟨_, rfl⟩
  | 3, _ => exact ⟨_, rfl⟩
  | 4, _ => exact ⟨_, rfl⟩
  | n + 5, hd => simp [exStand] at hd

/-- The texts differ: `Account` refers to `User`. -/
theorem exStand_texts : Returns exStand .schema (.named 2) (lit "z.lazy(() => Ns.User)") ∧
    Returns exStand .schema (.named 0) (lit "z.object({id: z.lazy(() => Ns.Id)})") ∧
    Returns exStand .typeDef (.named 2) (lit "Ns.User") ∧ Returns exStand .typeDef (.named 0) (lit "{id: Ns.Id}") :=
  ⟨⟨9, rfl⟩, ⟨9, rfl⟩, ⟨9, rfl⟩, ⟨9, rfl⟩⟩

theorem exStand_reads : readSchema (lit "z.lazy(() => Ns.User)") = some (.lazy (lit "Ns") (lit "User")) ∧
    readSchema (lit "z.object({id: z.lazy(() => Ns.Id)})") = some (.object [(lit "id", .lazy (lit "Ns") (lit "Id"))]) := by
  constructor
  · exact (eval_agree exStand_good exStand_styled 9 .schema (.named 2) _ (.inl rfl) rfl).read
  · exact (eval_agree exStand_good exStand_styled 9 .schema (.named 0) _ (.inl rfl) rfl).read

/-- Both schemas accept `{ id: 1 }`. -/
example : Accepts (moduleEnv exStand 9) (.lazy (lit "Ns") (lit "User")) (.obj [(lit "id", .num (.fin (1 : Int)))]) ∧
    Accepts (moduleEnv exStand 9) (.object [(lit "id", .lazy (lit "Ns") (lit "Id"))]) (.obj [(lit "id", .num (.fin (1 : Int)))]) := by
  have h : Accepts (moduleEnv exStand 9) (.object [(lit "id", .lazy (lit "Ns") (lit "Id"))])
      (.obj [(lit "id", .num (.fin (1 : Int)))]) := ⟨_, 9, rfl⟩
  refine ⟨?_, h⟩
  obtain ⟨r, hr⟩ := h
  exact ⟨r, ((C90_schema exStand exStand_valid exStand_good exStand_styled _ exStand_module 2 (.named 0)
    (.transparent 2 _ (exField "user" (.named 0)) rfl rfl rfl rfl rfl rfl rfl) _ _ exStand_texts.1 exStand_texts.2.1 _ _ exStand_reads.1 exStand_reads.2 _).1 r).2 hr⟩

/-- The two types have the same values. -/
example (v : JsVal) : Inhabits (tsModule exStand 9) false (.name [lit "Ns", lit "User"]) v ↔
    Inhabits (tsModule exStand 9) false (.obj [(lit "id", false, .name [lit "Ns", lit "Id"])]) v :=
  C90_type exStand exStand_valid exStand_good exStand_types exStand_styled _ exStand_tsModule 2 (.named 0)
    (.transparent 2 _ (exField "user" (.named 0)) rfl rfl rfl rfl rfl rfl rfl) _ _ exStand_texts.2.2.1 exStand_texts.2.2.2 _ _
    (eval_agreeT exStand_good exStand_types exStand_styled 9 .typeDef (.named 2) _ (.inl rfl) rfl).read
    (eval_agreeT exStand_good exStand_types exStand_styled 9 .typeDef (.named 0) _ (.inl rfl) rfl).read false v

/-- serde reads `1` as an `Id`. -/
example : De exStand (.named 1) (.num (.int 1)) :=
  (C90_serde exStand 1 (.prim .u32) (.newtype 1 _ (exPos (.prim .u32)) rfl rfl rfl rfl rfl rfl rfl rfl) (by intro d u h; cases h; intro h; cases h) _).2
    (.int .u32 _ _ 1 rfl (by decide) (by decide))

/-- serde writes an `Id` as a number. -/
example : Ser exStand false (.named 1) (.num (.int 1)) :=
  (C90_written exStand 1 (.prim .u32) (.newtype 1 _ (exPos (.prim .u32)) rfl rfl rfl rfl rfl rfl rfl rfl)
    (by intro d h; cases h; exact .inr ⟨rfl, rfl⟩) (by intro s h; cases h; rfl) false _).2
    (.int .u32 _ _ 1 (.inl rfl) (by decide) (by decide))

end Verif.Props
