import Verif.Ts.Means
import Verif.Props.Valid

/-!
# C07: generated TypeScript type text is valid and unambiguous
-/

namespace Verif.Props
open Verif Verif.Schema Verif.SchemaSpec Verif.Js Verif.Ts Verif.Spec

/-! ## A program used in examples -/

/-- `struct Base { id: u32 }`,
`struct Item { name: String, #[serde(default)] tags: Vec<String>, note: Option<String>, shape: Shape, #[serde(flatten)] base: Base }`,
`enum Shape { Empty, Circle(u32), Rect(u8, Result<u16, String>), Poly { points: Vec<Pair> } }`,
`#[serde(tag = "type")] enum Event { Start, Move { x: i32 } }`,
`#[serde(tag = "t", content = "c")] enum Msg { Ping, Text(String), At { pos: Pair } }`,
`struct Pair(u8, String)`, `struct Id(u32)`. -/
def exTs : Program :=
  [ .struct (exStruct "Base" [exField "id" (.prim .u32)]),
    .struct (exStruct "Item" [exField "name" (.prim .string), { exField "tags" (.vec (.prim .string)) with dflt := true },
      exField "note" (.option (.prim .string)), exField "shape" (.named 2),
      { exField "base" (.named 0) with flatten := true }]),
    .enum (exEnum "Shape" .external [exVariant "Empty" .unit [],
      exVariant "Circle" .tuple [exPos (.prim .u32)],
      exVariant "Rect" .tuple [exPos (.prim .u8), exPos (.result (.prim .u16) (.prim .string))],
      exVariant "Poly" .named [exField "points" (.vec (.named 5))]]),
    .enum (exEnum "Event" (.internal (lit "type")) [exVariant "Start" .unit [],
      exVariant "Move" .named [exField "x" (.prim .i32)]]),
    .enum (exEnum "Msg" (.adjacent (lit "t") (lit "c")) [exVariant "Ping" .unit [],
      exVariant "Text" .tuple [exPos (.prim .string)],
      exVariant "At" .named [exField "pos" (.named 5)]]),
    .struct (exTuple "Pair" [exPos (.prim .u8), exPos (.prim .string)]),
    .struct (exTuple "Id" [exPos (.prim .u32)]) ]

theorem exTs_good : GoodNames exTs := by
  intro d hd
  simp only [exTs, List.mem_cons, List.not_mem_nil, or_false] at hd
  rcases hd with e | e | e | e | e | e | e <;> subst e <;> decide +kernel

theorem exTs_types : GoodTypeNames exTs := by
  intro d hd
  simp only [exTs, List.mem_cons, List.not_mem_nil, or_false] at hd
  rcases hd with e | e | e | e | e | e | e <;> subst e <;> decide +kernel

theorem exTs_styled : WellStyled exTs := by
  intro d hd
  simp only [exTs, List.mem_cons, List.not_mem_nil, or_false] at hd
  rcases hd with e | e | e | e | e | e | e <;> subst e <;> decide +kernel

theorem exTs_plain : ∀ d ∈ exTs, Plain d := by
  intro d hd
  simp only [exTs, List.mem_cons, List.not_mem_nil, or_false] at hd
  rcases hd with e | e | e | e | e | e | e <;> subst e <;>
    simp [Plain, exStruct, exTuple, exEnum, exVariant, exPos, exField]

theorem exTs_noFlattenedUnion : NoFlattenedUnion exTs := by
  rintro s hs _ f hf hsk hfl hdf text hr ⟨ts, h⟩
  simp only [exTs, List.mem_cons, List.not_mem_nil, or_false, Decl.struct.injEq, reduceCtorEq, false_or] at hs
  rcases hs with e | e | e | e <;> subst e <;>
    simp only [exStruct, exTuple, List.mem_cons, List.not_mem_nil, or_false] at hf
  · subst hf; cases hfl
  · rcases hf with e | e | e | e | e <;> subst e <;> try cases hfl
    have h0 : Returns exTs .inline (.named 0) (lit "Ns.Base") := ⟨1, rfl⟩
    have : text = lit "Ns.Base" := returns_unique hr h0
    subst this
    have hread : readType (lit "null & " ++ lit "Ns.Base") =
      some (.inter [.name [lit "null"], .name [lit "Ns", lit "Base"]]) := rfl
    rw [hread] at h
    cases h
  · rcases hf with e | e <;> subst e <;> cases hfl
  · subst hf; cases hfl

/-! ## C07 -/

/-- **C07, syntax.** If the names of the program can be written into TypeScript, whatever `type_def()` and
`inline()` return is a TypeScript type. -/
theorem C07_parses (P : Program) (hg : GoodNames P) (ht : GoodTypeNames P) (hw : WellStyled P) (m : Method)
    (hm : m = .typeDef ∨ m = .inline) (t : Ty) (s : Str) (h : Returns P m t s) : ∃ T, readType s = some T := by
  obtain ⟨n, hn⟩ := h
  exact ⟨_, (eval_agreeT hg ht hw n m t s hm hn).read⟩

/-- The full property: the text is a type, and grouped as meant: it has the values of the type tree that is meant
for the Rust type. -/
def C07_statement : Prop :=
  ∀ (P : Program), GoodNames P → GoodTypeNames P → WellStyled P → (∀ d ∈ P, Plain d) →
    ∀ (m : Method), (m = .typeDef ∨ m = .inline) → ∀ (t : Ty) (s : Str), Returns P m t s →
      ∃ T, readType s = some T ∧ ∃ T', Means P (m = .inline) t T' ∧ SameValues T T'

/-- `struct S { a: String, #[serde(flatten)] r: Result<u8, String> }`. -/
def exFlat : Program :=
  [.struct (exStruct "S" [exField "a" (.prim .string),
    { exField "r" (.result (.prim .u8) (.prim .string)) with flatten := true }])]

/-- Why it is false: the type of `exFlat` is `{a: string} & { Ok: number } | { Err: string }`, so an object
without `a` is a value of it. -/
theorem C07_flattened_union : Returns exFlat .typeDef (.named 0) (lit "{a: string} & { Ok: number } | { Err: string }") ∧
    ∃ T, readType (lit "{a: string} & { Ok: number } | { Err: string }") = some T ∧
      ∀ D, Inhabits D false T (.obj [(lit "Err", .str (lit "x"))]) := by
  refine ⟨⟨5, rfl⟩, .union [.inter [.obj [(lit "a", false, .name [lit "string"])], .obj [(lit "Ok", false, .name [lit "number"])]],
      .obj [(lit "Err", false, .name [lit "string"])]], rfl,
    fun D => .union _ (.obj [(lit "Err", false, .name [lit "string"])]) _ (by simp) ?_⟩
  rw [inhabits_obj]
  refine ⟨_, rfl, fun p hp => ?_⟩
  rw [List.mem_singleton] at hp
  subst hp
  exact ⟨fun _ => .string _, fun h => by cases h⟩

/-- It is false: operator precedence groups a flattened `Result` (or `Box` of an enum) with the struct's own
properties only partly. -/
theorem C07_violated : ¬ C07_statement := by
  intro hst
  obtain ⟨hr, T, hT, hv⟩ := C07_flattened_union
  obtain ⟨T2, hT2, U, hU, hs⟩ := hst exFlat (by
      intro d hd; simp only [exFlat, List.mem_singleton] at hd; subst hd; decide +kernel)
    (by intro d hd; simp only [exFlat, List.mem_singleton] at hd; subst hd; decide +kernel)
    (by intro d hd; simp only [exFlat, List.mem_singleton] at hd; subst hd; decide +kernel)
    (by intro d hd; simp only [exFlat, List.mem_singleton] at hd; subst hd; simp [Plain, exStruct])
    .typeDef (Or.inl rfl) _ _ hr
  rw [hT] at hT2
  injection hT2 with hT2
  subst hT2
  have hv := (hs (fun _ _ => none) false _).1 (hv _)
  generalize hm : decide (Method.typeDef = Method.inline) = b at hU
  have key : ∀ s, exFlat[0]? = some (.struct s) → s = exStruct "S" [exField "a" (.prim .string),
      { exField "r" (.result (.prim .u8) (.prim .string)) with flatten := true }] := by
    intro s h
    simp only [exFlat, List.getElem?_cons_zero, Option.some.injEq, Decl.struct.injEq] at h
    exact h.symm
  cases hU with
  | ref => cases hm
  | structFrom _ _ s t _ h1 h2 => rw [key s h1] at h2; cases h2
  | enumFrom _ _ e t _ h1 h2 => cases h1
  | newtype _ s f _ h1 h2 h3 => rw [key s h1] at h3; rcases h3 with h3 | h3 <;> cases h3
  | tupleStruct _ s _ h1 h2 h3 h4 => rw [key s h1] at h4; cases h4
  | enum _ e _ h1 => cases h1
  | namedStruct _ s Ts Us h1 h2 h3 h4 h5 h6 h7 h8 =>
    have e := key s h1
    subst e
    rw [inhabits_inter] at hv
    have hv := hv _ List.mem_cons_self
    rw [inhabits_obj] at hv
    obtain ⟨kvs, ek, hv⟩ := hv
    injection ek with ek
    subst ek
    cases Ts with
    | nil => cases h5
    | cons T Ts =>
      have := (hv (lit "a", false, T) List.mem_cons_self).2 rfl rfl
      exact absurd this.1 (by decide)

/-- **C07.** The property holds if no flattened field (without default) has a type whose text is a bare union.
Flattened fields of derived types are always fine (`C07_reference_is_no_union`), and so are flattened options
(`C07_option_is_one_operand`). -/
theorem C07_partial (P : Program) (hg : GoodNames P) (ht : GoodTypeNames P) (hw : WellStyled P)
    (hp : ∀ d ∈ P, Plain d) (hf : NoFlattenedUnion P) (m : Method) (hm : m = .typeDef ∨ m = .inline) (t : Ty) (s : Str)
    (h : Returns P m t s) :
    ∃ T, readType s = some T ∧ ∃ T', Means P (m = .inline) t T' ∧ SameValues T T' := by
  obtain ⟨n, hn⟩ := h
  obtain ⟨T', h1, h2⟩ := eval_meant hg ht hp hw hf n m t s hm hn
  exact ⟨_, (eval_agreeT hg ht hw n m t s hm hn).read, T', h1, h2⟩

/-- C07: the text a derived type is referred to by is never a union. -/
theorem C07_reference_is_no_union (P : Program) (hg : GoodNames P) (ht : GoodTypeNames P)
    (i : Nat) (d : Decl) (hd : P[i]? = some d) (hn : NoFrom d) (s : Str) (h : Returns P .inline (.named i) s)
    (ts : List TsType) : readType s ≠ some (.union ts) ∧ ¬ FallsApart s := by
  obtain ⟨n, hn'⟩ := h
  cases n with
  | zero => cases hn'
  | succ n =>
    obtain ⟨ps, hb, hr⟩ := eval_succ.1 hn'
    obtain ⟨d', impl, hd', hi, rfl⟩ := body_named hb
    rw [hd] at hd'
    injection hd' with hd'
    subst hd'
    have hgd := hg d (List.mem_of_getElem? hd)
    have hns : goodNs d.ns = true ∧ isIdent d.name = true := by
      cases d with
      | struct sd => unfold goodDecl at hgd; simp only [Bool.and_eq_true] at hgd; exact hgd.1
      | enum ed => unfold goodDecl at hgd; simp only [Bool.and_eq_true] at hgd; exact hgd.1.1
    have hinl : impl.get .inline = tsRef d.ns d.name := (derive_refs hn hi).2
    rw [hinl] at hr
    have hden := ref_den hns.1 (ht d (List.mem_of_getElem? hd)) hns.2 hr
    rw [hden.read, fallsApart_iff hden]
    exact ⟨fun h => (by cases h), fun ⟨_, _, _, h⟩ => by cases h⟩

/-- C07: the text of an `Option` is one operand of `&`, although it is a union. -/
theorem C07_option_is_one_operand (P : Program) (hg : GoodNames P) (ht : GoodTypeNames P) (hw : WellStyled P) (t : Ty) (s : Str)
    (h : Returns P .inline (.option t) s) : (∃ ts, readType s = some (.union ts)) ∧ ¬ FallsApart s := by
  obtain ⟨n, hn⟩ := h
  match n, hn with
  | 1, hn => cases hn
  | n + 2, hn =>
    have hden := eval_agreeT hg ht hw (n + 2) .inline (.option t) s (.inr rfl) hn
    rw [hden.read, fallsApart_iff hden]
    have e : dOf P (n + 2) .inline (.option t) = [[ofDnf (dOf P n .typeDef t ++ undefD)]] := rfl
    rw [e]
    refine ⟨?_, fun ⟨_, _, _, h⟩ => by cases h⟩
    cases hd : dOf P n .typeDef t with
    | nil =>
      obtain ⟨ps, hb, hr⟩ := eval_succ.1 hn
      cases hb
      obtain ⟨x, hx⟩ := runPieces_call_mem hr (m := .typeDef) (t := .option t) (by simp)
      obtain ⟨ps, hb, hr⟩ := eval_succ.1 hx
      cases hb
      obtain ⟨y, hy⟩ := runPieces_call_mem hr (m := .typeDef) (t := t) (by simp)
      exact absurd hd (eval_agreeT hg ht hw n .typeDef t y (.inl rfl) hy).1
    | cons c r =>
      cases r with
      | nil => exact ⟨_, rfl⟩
      | cons c' r => exact ⟨_, rfl⟩

/-- The hypotheses are met, for every type of the example program; the type of `Item` among them. -/
example : ∃ s, Returns exTs .typeDef (.named 1) s ∧
    s = lit "{name: string,\ntags?: Array<string> | undefined,\nnote: (string | undefined),\nshape: Ns.Shape} & Ns.Base" ∧
    ∃ T, readType s = some T ∧ ∃ T', Means exTs false (.named 1) T' ∧ SameValues T T' :=
  ⟨_, ⟨6, rfl⟩, rfl, C07_partial exTs exTs_good exTs_types exTs_styled exTs_plain exTs_noFlattenedUnion .typeDef
    (Or.inl rfl) (.named 1) _ ⟨6, rfl⟩⟩

/-- `struct Base { b: String }`, `struct S { a: u8, #[serde(flatten)] o: Option<Base> }`. -/
def exFlatOption : Program :=
  [ .struct (exStruct "Base" [exField "b" (.prim .string)]),
    .struct (exStruct "S" [exField "a" (.prim .u8), { exField "o" (.option (.named 0)) with flatten := true }]) ]

theorem exFlatOption_good : GoodNames exFlatOption := by
  intro d hd
  simp only [exFlatOption, List.mem_cons, List.not_mem_nil, or_false] at hd
  rcases hd with rfl | rfl <;> decide +kernel

theorem exFlatOption_types : GoodTypeNames exFlatOption := by
  intro d hd
  simp only [exFlatOption, List.mem_cons, List.not_mem_nil, or_false] at hd
  rcases hd with rfl | rfl <;> decide +kernel

theorem exFlatOption_styled : WellStyled exFlatOption := by
  intro d hd
  simp only [exFlatOption, List.mem_cons, List.not_mem_nil, or_false] at hd
  rcases hd with rfl | rfl <;> decide +kernel

/-- A flattened option is no flattened union. -/
example : ∃ s, Returns exFlatOption .typeDef (.named 1) s ∧ s = lit "{a: number} & ({b: string} | undefined)" ∧
    ∃ T, readType s = some T ∧ ∃ T', Means exFlatOption false (.named 1) T' ∧ SameValues T T' := by
  have hf : NoFlattenedUnion exFlatOption := by
    intro s hs _ f hf _ hfl _ text hr
    simp only [exFlatOption, List.mem_cons, List.not_mem_nil, or_false] at hs
    rcases hs with e | e <;> cases e <;> simp only [exStruct, List.mem_cons, List.not_mem_nil, or_false] at hf
    · subst hf; cases hfl
    · rcases hf with rfl | rfl
      · cases hfl
      · exact (C07_option_is_one_operand _ exFlatOption_good exFlatOption_types exFlatOption_styled _ _ hr).2
  have hp : ∀ d ∈ exFlatOption, Plain d := by
    intro d hd
    simp only [exFlatOption, List.mem_cons, List.not_mem_nil, or_false] at hd
    rcases hd with rfl | rfl <;> simp [Plain, exStruct]
  exact ⟨_, ⟨9, rfl⟩, rfl, C07_partial exFlatOption exFlatOption_good exFlatOption_types exFlatOption_styled hp hf .typeDef
    (.inl rfl) (.named 1) _ ⟨9, rfl⟩⟩

/-- Every declaration of the example has a type text. -/
theorem exTs_returns : ∀ i d, exTs[i]? = some d → ∃ s, eval exTs 9 .typeDef (.named i) = some s := by
  intro i d hd
  match i, hd with
  | 0, _ => exact ⟨_, rfl⟩
  | 1, _ => exact ⟨_, rfl⟩
  | 2, _ => exact ⟨_, rfl⟩
  | 3, _ => exact ⟨_, rfl⟩
  | 4, _ => exact ⟨_, rfl⟩
  | 5, _ => exact ⟨_, rfl⟩
  | 6, _ => exact ⟨_, rfl⟩
  | n + 7, hd => simp [exTs] at hd

end Verif.Props
