import Verif.Props.ReorderTypes
import Verif.Props.Shuffle

/-!
# C86: the order of variants and the TypeScript types
-/

namespace Verif.Props
open Verif Verif.Schema Verif.SchemaSpec Verif.Js Verif.Spec Verif.Zod Verif.Ts

theorem sameFlattened_of_none {T : Tag → Prop} {P P' : Program} (h : ShuffledProgram T P P') (hf : ∀ d ∈ P, flattenedFields d = [])
    (hf' : ∀ d ∈ P', flattenedFields d = []) : SameFlattened P P' := by
  unfold ShuffledProgram at h
  unfold SameFlattened
  induction h with
  | nil => rfl
  | cons _ _ ih =>
    rw [List.map_cons, List.map_cons, ih (fun d hd => hf d (List.mem_cons_of_mem _ hd)) (fun d hd => hf' d (List.mem_cons_of_mem _ hd)),
      hf _ List.mem_cons_self, hf' _ List.mem_cons_self]

/-- **C86, TypeScript types.** Let the variants of enums be written in another order, or named fields, in programs whose structs have no
flattened fields. Then the types have the same values, for both readings of missing properties. -/
theorem C86_types (P P' : Program) (hP : ShuffledProgram (fun _ => True) P P') (hf : ∀ d ∈ P, flattenedFields d = [])
    (hf' : ∀ d ∈ P', flattenedFields d = []) (hs : ∀ d ∈ P, ∀ u ∈ declTypes d, InScope P u)
    (hg : GoodNames P) (hgt : GoodTypeNames P) (hw : WellStyled P) (hg' : GoodNames P') (hgt' : GoodTypeNames P') (hw' : WellStyled P')
    (D D' : TsEnv) (hD : IsTsModule P D) (hD' : IsTsModule P' D') (m : Method) (hm : m = .typeDef ∨ m = .inline) (t : Ty)
    (ht : InScope P t) (s s' : Str) (h : Returns P m t s) (h' : Returns P' m t s') (T T' : TsType) (hT : readType s = some T)
    (hT' : readType s' = some T') (lenient : Bool) (v : JsVal) : Inhabits D lenient T v ↔ Inhabits D' lenient T' v :=
  shuffled_values (w := True) (fun _ _ => trivial) hP (sameFlattened_of_none hP hf hf') (fun _ => hf) hs hg hgt hw hg' hgt' hw' hD hD' hm ht
    h h' hT hT' lenient v

/-! ## The hypotheses are met -/

theorem exOrder_types : GoodTypeNames exOrder := by
  intro d hd
  simp only [exOrder, List.mem_cons, List.not_mem_nil, or_false] at hd
  subst hd; decide +kernel

theorem exOrder_types' : GoodTypeNames exOrder' := by
  intro d hd
  simp only [exOrder', List.mem_cons, List.not_mem_nil, or_false] at hd
  subst hd; decide +kernel

/-- `{ Move: { x: number } } | { Turn: { y: number } }`. -/
def exOrderT : TsType :=
  .union [.obj [(lit "Move", false, .obj [(lit "x", false, .name [lit "number"])])],
    .obj [(lit "Turn", false, .obj [(lit "y", false, .name [lit "number"])])]]

/-- `{ Turn: { y: number } } | { Move: { x: number } }`. -/
def exOrderT' : TsType :=
  .union [.obj [(lit "Turn", false, .obj [(lit "y", false, .name [lit "number"])])],
    .obj [(lit "Move", false, .obj [(lit "x", false, .name [lit "number"])])]]

theorem exOrder_scope : ∀ d ∈ exOrder, ∀ u ∈ declTypes d, InScope exOrder u := by
  intro d hd u hu
  simp only [exOrder, List.mem_cons, List.not_mem_nil, or_false] at hd
  subst hd
  simp [declTypes, fieldTypes, exEnum, exVariant, exField] at hu
  rcases hu with rfl | hu
  · exact .prim _
  · cases hu

/-- The type of `Event` in both orders. -/
example (D D' : TsEnv) (hD : IsTsModule exOrder D) (hD' : IsTsModule exOrder' D') (v : JsVal) :
    Inhabits D false exOrderT v ↔ Inhabits D' false exOrderT' v :=
  C86_types exOrder exOrder' exOrder_shuffled (by simp [exOrder, flattenedFields]) (by simp [exOrder', flattenedFields]) exOrder_scope
    exOrder_good exOrder_types exOrder_styled exOrder_good' exOrder_types' exOrder_styled' D D' hD hD' .typeDef (Or.inl rfl) (.named 0)
    (.named (by decide)) (lit "{ Move: { x: number } } | { Turn: { y: number } }") (lit "{ Turn: { y: number } } | { Move: { x: number } }")
    ⟨9, rfl⟩ ⟨9, rfl⟩ _ _ rfl rfl false v

/-! ## What is needed -/

/-- `enum E { … }` with these variants and `struct S { a: String, #[serde(flatten)] e: Box<E> }`. -/
def exFlatE (vs : List Variant) : Program :=
  [ .enum (exEnum "E" .external vs), .struct (exStruct "S" [exField "a" (.prim .string), { exField "e" (.wrap .box (.named 0)) with flatten := true }]) ]

/-- `A { x: u8 }`. -/
def exVarA : Variant := exVariant "A" .named [exField "x" (.prim .u8)]
/-- `B { y: String }`. -/
def exVarB : Variant := exVariant "B" .named [exField "y" (.prim .string)]

/-- **C86, why `C86_types` is about structs without flattened fields.** With `A` before `B` the type of `S` is
`{a: string} & { A: { x: number } } | { B: { y: string } }`, in the other order it is
`{a: string} & { B: { y: string } } | { A: { x: number } }`. Only the first has the value `{ B: { y: "z" } }`. -/
theorem C86_types_flattened_order : ShuffledProgram (fun _ => True) (exFlatE [exVarA, exVarB]) (exFlatE [exVarB, exVarA]) ∧
    Returns (exFlatE [exVarA, exVarB]) .typeDef (.named 1) (lit "{a: string} & { A: { x: number } } | { B: { y: string } }") ∧
    Returns (exFlatE [exVarB, exVarA]) .typeDef (.named 1) (lit "{a: string} & { B: { y: string } } | { A: { x: number } }") ∧
    ∃ T T', readType (lit "{a: string} & { A: { x: number } } | { B: { y: string } }") = some T ∧
      readType (lit "{a: string} & { B: { y: string } } | { A: { x: number } }") = some T' ∧
      (∀ D, Inhabits D false T (.obj [(lit "B", .obj [(lit "y", .str (lit "z"))])])) ∧
      ∀ D lenient, ¬ Inhabits D lenient T' (.obj [(lit "B", .obj [(lit "y", .str (lit "z"))])]) := by
  refine ⟨.cons (.variants (exEnum "E" .external [exVarA, exVarB]) _ trivial (.swap _ _ _)) (.cons (.fields (.same _)) .nil), ⟨9, rfl⟩, ⟨9, rfl⟩,
    .union [.inter [.obj [(lit "a", false, .name [lit "string"])], .obj [(lit "A", false, .obj [(lit "x", false, .name [lit "number"])])]],
      .obj [(lit "B", false, .obj [(lit "y", false, .name [lit "string"])])]],
    .union [.inter [.obj [(lit "a", false, .name [lit "string"])], .obj [(lit "B", false, .obj [(lit "y", false, .name [lit "string"])])]],
      .obj [(lit "A", false, .obj [(lit "x", false, .name [lit "number"])])]], rfl, rfl, fun D => ?_, fun D l hv => ?_⟩
  · refine .union _ _ _ (List.mem_cons_of_mem _ List.mem_cons_self) ?_
    rw [inhabits_obj]
    refine ⟨_, rfl, fun p hp => ?_⟩
    rw [List.mem_singleton] at hp
    subst hp
    refine ⟨fun _ => ?_, fun h => by cases h⟩
    rw [inhabits_obj]
    refine ⟨_, rfl, fun p hp => ?_⟩
    rw [List.mem_singleton] at hp
    subst hp
    exact ⟨fun _ => .string _, fun h => by cases h⟩
  · rw [inhabits_union] at hv
    obtain ⟨t, ht, hv⟩ := hv
    simp only [List.mem_cons, List.not_mem_nil, or_false] at ht
    rcases ht with rfl | rfl
    · cases hv with
      | inter _ _ hv =>
        have h1 := hv _ List.mem_cons_self
        rw [inhabits_obj] at h1
        obtain ⟨kvs, e, h1⟩ := h1
        injection e with e
        subst e
        exact no_undefined_string ((h1 _ List.mem_cons_self).2 rfl rfl).2
    · rw [inhabits_obj] at hv
      obtain ⟨kvs, e, hv⟩ := hv
      injection e with e
      subst e
      have h2 : Inhabits D l (.obj [(lit "x", false, .name [lit "number"])]) .undefined := ((hv _ List.mem_cons_self).2 rfl rfl).2
      rw [inhabits_obj] at h2
      obtain ⟨_, e, _⟩ := h2
      cases e

end Verif.Props
