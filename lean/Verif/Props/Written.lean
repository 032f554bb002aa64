import Verif.Ts.Written
import Verif.Props.Agree

/-!
# C51: what the server writes is a value of the TypeScript type

The generated client does not validate results, so this is what makes their types true.
-/

namespace Verif.Props
open Verif Verif.Schema Verif.SchemaSpec Verif.Js Verif.Ts Verif.Spec Verif.Zod

/-- The full property: the document serde writes for a value of a type is, parsed, a value of the TypeScript
type. -/
def C51_statement : Prop :=
  ∀ (P : Program), GoodNames P → GoodTypeNames P → WellStyled P → (∀ d ∈ P, Plain d) →
    ∀ (D : TsEnv), IsTsModule P D → ∀ (m : Method), (m = .typeDef ∨ m = .inline) →
    ∀ (t : Ty) (s : Str) (T : TsType), Returns P m t s → readType s = some T →
    ∀ (j : Json), DistinctKeys j → Ser P true t j → Inhabits D false T (fromJson j)

theorem declared_of_module {P : Program} (hg : GoodNames P) (ht : GoodTypeNames P) (hw : WellStyled P)
    (hp : ∀ d ∈ P, Plain d) (hf : NoFlattenedUnion P) {D : TsEnv} (hD : IsTsModule P D) : Declared P D := by
  intro i d hi _
  obtain ⟨s, ⟨n, hn⟩, hr⟩ := hD i d hi
  obtain ⟨T', h1, h2⟩ := eval_meant hg ht hp hw hf n .typeDef (.named i) s (Or.inl rfl) hn
  exact ⟨_, T', hr.trans (eval_agreeT hg ht hw n .typeDef (.named i) s (Or.inl rfl) hn).read, h1, h2⟩

/-- **C51.** The property holds for values of types without `Option` (other than fields that are left out when
they are `None`), sets, maps, `PhantomData` and `Weak`, in programs whose declarations are `TypedDecl`: written
under the names they are read under, without newtype variants in internally tagged enums. `odd`: also values
with non-finite numbers and such, in which case there are no floating point types. `lenient`: properties that
are not optional may be missing if their type allows `undefined`. -/
theorem C51_partial (P : Program) (odd lenient : Bool) (hg : GoodNames P) (ht : GoodTypeNames P) (hw : WellStyled P)
    (hp : ∀ d ∈ P, Plain d) (hf : NoFlattenedUnion P) (hT : ∀ d ∈ P, TypedDecl P odd lenient d)
    (D : TsEnv) (hD : IsTsModule P D) (m : Method) (hm : m = .typeDef ∨ m = .inline)
    (t : Ty) (htt : Typed odd t) (s : Str) (T : TsType) (h : Returns P m t s) (hr : readType s = some T)
    (j : Json) (hd : DistinctKeys j) (hs : Ser P odd t j) : Inhabits D lenient T (fromJson j) := by
  obtain ⟨n, hn⟩ := h
  obtain ⟨T', h1, h2⟩ := eval_meant hg ht hp hw hf n m t s hm hn
  rw [(eval_agreeT hg ht hw n m t s hm hn).read] at hr
  injection hr with hr
  subst hr
  exact (h2 D lenient _).2 ((ser_good (declared_of_module hg ht hw hp hf hD) hT hs).self htt hd h1)

/-! ## What is missing -/

/-- `None` is written as `null`, which is not a value of `string | undefined`. -/
theorem C51_none : Returns [] .typeDef (.option (.prim .string)) (lit "(string | undefined)") ∧
    readType (lit "(string | undefined)") = some (.union [.name [lit "string"], .name [lit "undefined"]]) ∧
    Ser [] false (.option (.prim .string)) .null ∧
    ∀ D len, ¬ Inhabits D len (.union [.name [lit "string"], .name [lit "undefined"]]) (fromJson .null) := by
  refine ⟨⟨4, rfl⟩, rfl, .none _, fun D len h => ?_⟩
  rw [inhabits_union] at h
  obtain ⟨t, ht, h⟩ := h
  simp only [List.mem_cons, List.not_mem_nil, or_false] at ht
  generalize hv : fromJson .null = v at h
  rcases ht with rfl | rfl <;> cases h <;> cases hv

/-- A set is written as an array, which is not a value of `Set<string>`. -/
theorem C51_set : Returns [] .typeDef (.hashSet (.prim .string)) (lit "Set<string>") ∧
    readType (lit "Set<string>") = some (.app [lit "Set"] [.name [lit "string"]]) ∧
    Ser [] false (.hashSet (.prim .string)) (.arr []) ∧
    ∀ D len, ¬ Inhabits D len (.app [lit "Set"] [.name [lit "string"]]) (fromJson (.arr [])) := by
  refine ⟨⟨4, rfl⟩, rfl, .hashSet _ _ (by simp), fun D len h => ?_⟩
  rw [inhabits_set] at h
  obtain ⟨l, e, _⟩ := h
  cases e

/-- A map is written as an object, which is not a value of `Map<string, number>`. -/
theorem C51_map : Returns [] .typeDef (.hashMap (.prim .string) (.prim .u8)) (lit "Map<string, number>") ∧
    readType (lit "Map<string, number>") = some (.app [lit "Map"] [.name [lit "string"], .name [lit "number"]]) ∧
    Ser [] false (.hashMap (.prim .string) (.prim .u8)) (.obj []) ∧
    ∀ D len, ¬ Inhabits D len (.app [lit "Map"] [.name [lit "string"], .name [lit "number"]]) (fromJson (.obj [])) := by
  refine ⟨⟨4, rfl⟩, rfl, .hashMap _ _ _ (Or.inl rfl) (by simp), fun D len h => ?_⟩
  rw [inhabits_map] at h
  obtain ⟨l, e, _⟩ := h
  cases e

/-- NaN is written as `null`, which is not a value of `number`. -/
theorem C51_nan : Returns [] .typeDef (.prim .f64) (lit "number") ∧
    readType (lit "number") = some (.name [lit "number"]) ∧ Ser [] true (.prim .f64) .null ∧
    ∀ D len, ¬ Inhabits D len (.name [lit "number"]) (fromJson .null) := by
  refine ⟨⟨4, rfl⟩, rfl, .nonFinite _ (Or.inr (Or.inl rfl)) rfl, fun D len h => ?_⟩
  generalize hv : fromJson .null = v at h
  cases h <;> cases hv

/-- `PhantomData` is written as `null`, which is not a value of `string`. -/
theorem C51_phantom : Returns [] .typeDef (.wrap .phantomData (.prim .string)) (lit "string") ∧
    readType (lit "string") = some (.name [lit "string"]) ∧ Ser [] false (.wrap .phantomData (.prim .string)) .null ∧
    ∀ D len, ¬ Inhabits D len (.name [lit "string"]) (fromJson .null) := by
  refine ⟨⟨4, rfl⟩, rfl, .phantom _, fun D len h => ?_⟩
  generalize hv : fromJson .null = v at h
  cases h <;> cases hv

/-- `struct S { x: u8 }`, `#[serde(tag = "t")] enum E { A(S) }`. -/
def exTaggedNew : Program :=
  [ .struct (exStruct "S" [exField "x" (.prim .u8)]),
    .enum (exEnum "E" (.internal (lit "t")) [exVariant "A" .tuple [exPos (.named 0)]]) ]

/-- `E::A(S { x: 1 })` is written as `{"t":"A","x":1}`, which has no property `A`. -/
theorem C51_internal_newtype : ∃ s T, Returns exTaggedNew .typeDef (.named 1) s ∧ readType s = some T ∧
    Ser exTaggedNew false (.named 1) (.obj [(lit "t", .str (lit "A")), (lit "x", .num (.int 1))]) ∧
    ∀ D, ¬ Inhabits D false T (fromJson (.obj [(lit "t", .str (lit "A")), (lit "x", .num (.int 1))])) := by
  refine ⟨lit "{ A: Ns.S }", .obj [(lit "A", false, .name [lit "Ns", lit "S"])], ⟨6, rfl⟩, rfl, ?_, fun D h => ?_⟩
  · refine .internalNewtype 1 _ (exVariant "A" .tuple [exPos (.named 0)]) (lit "t") (exPos (.named 0)) _ rfl rfl rfl
      (List.mem_singleton.2 rfl) rfl rfl rfl (.struct 0 _ _ rfl rfl rfl (.named _ _ ?_))
    exact .field (exField "x" (.prim .u8)) _ _ (.num (.int 1)) rfl rfl rfl
      (.int _ 0 255 1 (Or.inl rfl) (by decide) (by decide)) .nil
  · rw [inhabits_obj] at h
    obtain ⟨kvs, e, h⟩ := h
    rw [fromJson_obj] at e
    injection e with e
    subst e
    exact absurd ((h _ List.mem_cons_self).2 rfl rfl).1 (by decide)

/-- It is false. -/
theorem C51_violated : ¬ C51_statement := by
  intro h
  obtain ⟨h1, h2, h3, h4⟩ := C51_set
  refine h4 (fun _ _ => none) false (h [] (by intro d hd; cases hd) (by intro d hd; cases hd) (by intro d hd; cases hd)
    (by intro d hd; cases hd) _ (by intro i d hd; simp at hd) _ (Or.inl rfl) _ _ _ h1 h2 _ (.arr _ (by simp)) ?_)
  exact .hashSet _ _ (by simp)

/-! ## The hypotheses are met -/

/-- `struct Base { id: u32 }`,
`struct Item { name: String, #[serde(default, skip_serializing_if = "Vec::is_empty")] tags: Vec<String>,
#[serde(default, skip_serializing_if = "Option::is_none")] note: Option<String>, shape: Shape, pair: Box<Pair> }`,
`enum Shape { Empty, Circle(u32), Rect(u8, Result<u16, String>), Poly { points: Vec<Pair> }, Nested(Item) }`,
`#[serde(tag = "type")] enum Event { Start, Move { x: i32 } }`,
`struct Entry { #[serde(flatten)] base: Base, #[serde(flatten)] event: Event, n: u8 }`,
`struct Pair(u8, String)`. -/
def exWr : Program :=
  [ .struct (exStruct "Base" [exField "id" (.prim .u32)]),
    .struct (exStruct "Item" [exField "name" (.prim .string), { exField "tags" (.vec (.prim .string)) with dflt := true, skipIf := true },
      { exField "note" (.option (.prim .string)) with dflt := true, skipIfNone := true }, exField "shape" (.named 2),
      exField "pair" (.wrap .box (.named 5))]),
    .enum (exEnum "Shape" .external [exVariant "Empty" .unit [],
      exVariant "Circle" .tuple [exPos (.prim .u32)],
      exVariant "Rect" .tuple [exPos (.prim .u8), exPos (.result (.prim .u16) (.prim .string))],
      exVariant "Poly" .named [exField "points" (.vec (.named 5))],
      exVariant "Nested" .tuple [exPos (.named 1)]]),
    .enum (exEnum "Event" (.internal (lit "type")) [exVariant "Start" .unit [],
      exVariant "Move" .named [exField "x" (.prim .i32)]]),
    .struct (exStruct "Entry" [{ exField "base" (.named 0) with flatten := true },
      { exField "event" (.named 3) with flatten := true }, exField "n" (.prim .u8)]),
    .struct (exTuple "Pair" [exPos (.prim .u8), exPos (.prim .string)]) ]

theorem exWr_good : GoodNames exWr := by
  intro d hd
  simp only [exWr, List.mem_cons, List.not_mem_nil, or_false] at hd
  rcases hd with e | e | e | e | e | e <;> subst e <;> decide +kernel

theorem exWr_types : GoodTypeNames exWr := by
  intro d hd
  simp only [exWr, List.mem_cons, List.not_mem_nil, or_false] at hd
  rcases hd with e | e | e | e | e | e <;> subst e <;> decide +kernel

theorem exWr_styled : WellStyled exWr := by
  intro d hd
  simp only [exWr, List.mem_cons, List.not_mem_nil, or_false] at hd
  rcases hd with e | e | e | e | e | e <;> subst e <;> decide +kernel

theorem exWr_plain : ∀ d ∈ exWr, Plain d := by
  intro d hd
  simp only [exWr, List.mem_cons, List.not_mem_nil, or_false] at hd
  rcases hd with e | e | e | e | e | e <;> subst e <;>
    simp [Plain, exStruct, exTuple, exEnum, exVariant, exPos, exField]

theorem exWr_noFlattenedUnion : NoFlattenedUnion exWr := by
  intro s hs _ f hf hsk hfl hdf text hr
  have href : ∀ i d, exWr[i]? = some d → NoFrom d → f.ty = .named i → ¬ FallsApart text := by
    intro i d hi hn e
    rw [e] at hr
    exact (C07_reference_is_no_union exWr exWr_good exWr_types i d hi hn text hr []).2
  simp only [exWr, List.mem_cons, List.not_mem_nil, or_false, Decl.struct.injEq, reduceCtorEq, false_or] at hs
  rcases hs with e | e | e | e <;> subst e <;>
    simp only [exStruct, exTuple, List.mem_cons, List.not_mem_nil, or_false] at hf
  · subst hf; cases hfl
  · rcases hf with e | e | e | e | e <;> subst e <;> cases hfl
  · rcases hf with e | e | e <;> subst e
    · exact href 0 _ rfl rfl rfl
    · exact href 3 _ rfl rfl rfl
    · cases hfl
  · rcases hf with e | e <;> subst e <;> cases hfl

theorem exWr_returns : ∀ i d, exWr[i]? = some d → ∃ s, eval exWr 9 .typeDef (.named i) = some s := by
  intro i d hd
  match i, hd with
  | 0, _ => exact ⟨_, rfl⟩
  | 1, _ => exact ⟨_, rfl⟩
  | 2, _ => exact ⟨_, rfl⟩
  | 3, _ => exact ⟨_, rfl⟩
  | 4, _ => exact ⟨_, rfl⟩
  | 5, _ => exact ⟨_, rfl⟩
  | n + 6, hd => simp [exWr] at hd

theorem exWr_distinct : DistinctDecls exWr := by unfold DistinctDecls; decide +kernel

theorem exWr_module : IsTsModule exWr (tsModule exWr 9) := tsModule_ok exWr_distinct exWr_returns

theorem exWr_typed : ∀ d ∈ exWr, TypedDecl exWr true false d := by
  have hp : ∀ p, ¬ floatPrim p → Typed true (.prim p) := fun p h => .prim p (fun h' => absurd h' h)
  have hs : Typed true (.prim .string) := hp _ (by unfold floatPrim; decide)
  have h8 : Typed true (.prim .u8) := hp _ (by unfold floatPrim; decide)
  have h16 : Typed true (.prim .u16) := hp _ (by unfold floatPrim; decide)
  have h32 : Typed true (.prim .u32) := hp _ (by unfold floatPrim; decide)
  have hi32 : Typed true (.prim .i32) := hp _ (by unfold floatPrim; decide)
  intro d hd
  simp only [exWr, List.mem_cons, List.not_mem_nil, or_false] at hd
  rcases hd with e | e | e | e | e | e <;> subst e
  · refine ⟨rfl, fun f hf => ?_⟩
    simp only [keptFields, exStruct, exField, List.filter, Bool.not_false, List.mem_singleton] at hf
    subst hf
    exact Or.inr (Or.inl ⟨rfl, rfl, rfl, rfl, rfl, h32⟩)
  · refine ⟨rfl, fun f hf => ?_⟩
    simp only [keptFields, exStruct, exField, List.filter, Bool.not_false, List.mem_cons, List.not_mem_nil, or_false] at hf
    rcases hf with rfl | rfl | rfl | rfl | rfl
    · exact Or.inr (Or.inl ⟨rfl, rfl, rfl, rfl, rfl, hs⟩)
    · exact Or.inr (Or.inr (Or.inr (Or.inl ⟨rfl, rfl, rfl, rfl, rfl, .vec _ hs, rfl, by unfold PlainNames; decide +kernel⟩)))
    · exact Or.inr (Or.inr (Or.inl ⟨rfl, rfl, rfl, rfl, rfl, ⟨_, rfl, hs⟩, Or.inl rfl, by unfold PlainNames; decide +kernel⟩))
    · exact Or.inr (Or.inl ⟨rfl, rfl, rfl, rfl, rfl, .named _⟩)
    · exact Or.inr (Or.inl ⟨rfl, rfl, rfl, rfl, rfl, .wrap _ _ (by decide) (by decide) (.named _)⟩)
  · refine ⟨rfl, fun v hv _ => ?_⟩
    simp only [exEnum, List.mem_cons, List.not_mem_nil, or_false] at hv
    rcases hv with rfl | rfl | rfl | rfl | rfl
    · exact ⟨rfl, rfl, rfl, by simp [exVariant], trivial⟩
    · refine ⟨rfl, rfl, ⟨Or.inl ⟨rfl, rfl⟩, by decide, fun f hf => ?_⟩, by decide, trivial⟩
      simp only [exVariant, keptFields, exPos, exField, List.filter, Bool.not_false, List.mem_singleton] at hf
      subst hf
      exact ⟨h32, fun _ => rfl⟩
    · refine ⟨rfl, rfl, ⟨Or.inr ⟨by decide, by decide⟩, by decide, fun f hf => ?_⟩, by decide, trivial⟩
      simp only [exVariant, keptFields, exPos, exField, List.filter, Bool.not_false, List.mem_cons, List.not_mem_nil,
        or_false] at hf
      rcases hf with rfl | rfl
      · exact ⟨h8, fun _ => rfl⟩
      · exact ⟨.result _ _ h16 hs, fun _ => rfl⟩
    · refine ⟨rfl, rfl, fun f hf => ?_, by decide, trivial⟩
      simp only [exVariant, keptFields, exField, List.filter, Bool.not_false, List.mem_singleton] at hf
      subst hf
      exact Or.inr (Or.inl ⟨rfl, rfl, rfl, rfl, rfl, .vec _ (.named _)⟩)
    · refine ⟨rfl, rfl, ⟨Or.inl ⟨rfl, rfl⟩, by decide, fun f hf => ?_⟩, by decide, trivial⟩
      simp only [exVariant, keptFields, exPos, exField, List.filter, Bool.not_false, List.mem_singleton] at hf
      subst hf
      exact ⟨.named _, fun _ => rfl⟩
  · refine ⟨rfl, fun v hv _ => ?_⟩
    simp only [exEnum, List.mem_cons, List.not_mem_nil, or_false] at hv
    rcases hv with rfl | rfl
    · exact ⟨rfl, rfl, rfl, by simp [exVariant], by decide, by simp [exVariant, keptFields]⟩
    · refine ⟨rfl, rfl, fun f hf => ?_, by decide, by decide, by decide +kernel⟩
      simp only [exVariant, keptFields, exField, List.filter, Bool.not_false, List.mem_singleton] at hf
      subst hf
      exact Or.inr (Or.inl ⟨rfl, rfl, rfl, rfl, rfl, hi32⟩)
  · refine ⟨rfl, fun f hf => ?_⟩
    simp only [keptFields, exStruct, exField, List.filter, Bool.not_false, List.mem_cons, List.not_mem_nil, or_false] at hf
    rcases hf with rfl | rfl | rfl
    · exact Or.inr (Or.inr (Or.inr (Or.inr ⟨rfl, rfl, rfl, rfl, .named _, .struct 0 _ rfl rfl rfl rfl (by unfold AlwaysWritten; decide)⟩)))
    · refine Or.inr (Or.inr (Or.inr (Or.inr ⟨rfl, rfl, rfl, rfl, .named _, .enum 3 _ rfl rfl (fun v hv h _ => ?_) (fun v hv h => ?_)⟩)))
      · simp only [exEnum, List.mem_cons, List.not_mem_nil, or_false] at hv
        rcases hv with rfl | rfl
        · cases h
        · unfold AlwaysWritten; decide
      · simp only [exEnum, List.mem_cons, List.not_mem_nil, or_false] at hv
        rcases hv with rfl | rfl <;> cases h
    · exact Or.inr (Or.inl ⟨rfl, rfl, rfl, rfl, rfl, h8⟩)
  · refine ⟨rfl, Or.inr ⟨by decide, by decide⟩, by decide, fun f hf => ?_⟩
    simp only [keptFields, exTuple, exStruct, exPos, exField, List.filter, Bool.not_false, List.mem_cons,
      List.not_mem_nil, or_false] at hf
    rcases hf with rfl | rfl
    · exact ⟨h8, fun _ => rfl⟩
    · exact ⟨hs, fun _ => rfl⟩

/-- Flattened fields: the document of an `Entry` is a value of its type. -/
example : ∃ s T, Returns exWr .typeDef (.named 4) s ∧ readType s = some T ∧
    Inhabits (tsModule exWr 9) false T (fromJson (.obj [(lit "id", .num (.int 7)), (lit "type", .str (lit "Move")),
      (lit "x", .num (.int (-3))), (lit "n", .num (.int 1))])) := by
  obtain ⟨s, hs⟩ := exWr_returns 4 _ rfl
  have hr := (eval_agreeT exWr_good exWr_types exWr_styled 9 .typeDef (.named 4) s (Or.inl rfl) hs).read
  refine ⟨s, _, ⟨9, hs⟩, hr, C51_partial exWr true false exWr_good exWr_types exWr_styled exWr_plain
    exWr_noFlattenedUnion exWr_typed _ exWr_module .typeDef (Or.inl rfl) (.named 4) (.named 4) s _ ⟨9, hs⟩ hr _ ?_ ?_⟩
  · refine .obj _ (by decide +kernel) (fun p hp => ?_)
    simp only [List.mem_cons, List.not_mem_nil, or_false] at hp
    rcases hp with rfl | rfl | rfl | rfl <;> constructor
  · refine .struct 4 _ _ rfl rfl rfl (.named _ _ ?_)
    refine .flat _ _ [(lit "id", .num (.int 7))] _ rfl rfl ?_ (.flat _ _ [(lit "type", .str (lit "Move")),
      (lit "x", .num (.int (-3)))] _ rfl rfl ?_ ?_)
    · exact .struct 0 _ _ rfl rfl rfl (.named _ _ (.field (exField "id" (.prim .u32)) _ _ _ rfl rfl rfl
        (.int _ 0 4294967295 7 (Or.inl rfl) (by decide) (by decide)) .nil))
    · exact .internal 3 _ (exVariant "Move" .named [exField "x" (.prim .i32)]) (lit "type") _ rfl rfl rfl
        (List.mem_cons_of_mem _ List.mem_cons_self) rfl rfl
        (.field (exField "x" (.prim .i32)) _ _ _ rfl rfl rfl
          (.int _ (-2147483648) 2147483647 (-3) (Or.inl rfl) (by decide) (by decide)) .nil)
    · exact .field (exField "n" (.prim .u8)) _ _ _ rfl rfl rfl
        (.int _ 0 255 1 (Or.inl rfl) (by decide) (by decide)) .nil

end Verif.Props
