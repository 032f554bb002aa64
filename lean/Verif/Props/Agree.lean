import Verif.Ts.Agree
import Verif.Props.Types

/-!
# C06: TypeScript type and zod schema agree
-/

namespace Verif.Props
open Verif Verif.Schema Verif.SchemaSpec Verif.Js Verif.Ts Verif.Spec Verif.Zod

/-- The full property: what the schema of a type accepts, and what parsing returns for it, are values of the
TypeScript type. -/
def C06_statement : Prop :=
  ∀ (P : Program), GoodNames P → GoodTypeNames P → WellStyled P → (∀ d ∈ P, Plain d) →
    ∀ (E : ZEnv) (D : TsEnv), IsModule P E → IsTsModule P D →
    ∀ (t : Ty) (s s' : Str), Returns P .schema t s → Returns P .typeDef t s' →
    ∀ (z : ZSchema) (T : TsType), readSchema s = some z → readType s' = some T →
    ∀ (v r : JsVal), ParsesTo E z v r → Inhabits D false T v ∧ Inhabits D false T r

/-- The two texts of a type, whichever of the functions they come from, agree. -/
theorem C06_agree {P : Program} (hg : GoodNames P) (ht : GoodTypeNames P) (hw : WellStyled P)
    (hp : ∀ d ∈ P, Plain d) {E : ZEnv} {D : TsEnv} (hE : IsModule P E) (hD : IsTsModule P D) {len : Bool}
    (hs : len = true ∨ ∀ d ∈ P, StrictDecl P d) {mz mt : Method} (hmz : mz = .schema ∨ mz = .inlineSchema)
    (hmt : mt = .typeDef ∨ mt = .inline) {t : Ty} (hst : len = true ∨ Strict P t) {s s' : Str}
    (h : Returns P mz t s) (h' : Returns P mt t s') {z : ZSchema} {T : TsType} (hz : readSchema s = some z)
    (hT : readType s' = some T) {v r : JsVal} (hv : ParsesTo E z v r) : Inhabits D len T v ∧ Inhabits D len T r := by
  obtain ⟨n, hn⟩ := h
  obtain ⟨m, hm⟩ := h'
  obtain ⟨k, hk⟩ := hv
  rw [(eval_agree hg hw n mz t s hmz hn).read] at hz
  rw [(eval_agreeT hg ht hw m mt t s' hmt hm).read] at hT
  injection hT with hT
  subst hT
  exact claim hg ht hw hp (envOk_of_module hg hw hE) hD hs k n m mz mt t z s' hmt hst hz hm v r hk

/-- **C06, all types.** What the schema accepts (and what parsing returns) is a value of the type, except that a
property that is not optional may be missing if its type allows `undefined`. This holds for every type, for
`schema()` and `inline_schema()` on one side and `type_def()` and `inline()` on the other. Missing for the full
property: TypeScript (and the statement above) wants such a property to be there. -/
theorem C06_lenient_partial (P : Program) (hg : GoodNames P) (ht : GoodTypeNames P) (hw : WellStyled P)
    (hp : ∀ d ∈ P, Plain d) (E : ZEnv) (D : TsEnv) (hE : IsModule P E) (hD : IsTsModule P D)
    (mz mt : Method) (hmz : mz = .schema ∨ mz = .inlineSchema) (hmt : mt = .typeDef ∨ mt = .inline)
    (t : Ty) (s s' : Str) (h : Returns P mz t s) (h' : Returns P mt t s') (z : ZSchema) (T : TsType)
    (hz : readSchema s = some z) (hT : readType s' = some T) (v r : JsVal) (hv : ParsesTo E z v r) :
    Inhabits D true T v ∧ Inhabits D true T r :=
  C06_agree hg ht hw hp hE hD (Or.inl rfl) hmz hmt (Or.inl rfl) h h' hz hT hv

/-- **C06, strict.** The property holds for programs in which no field without default that is written as a
property has a type that allows `undefined`. -/
theorem C06_strict_partial (P : Program) (hg : GoodNames P) (ht : GoodTypeNames P) (hw : WellStyled P)
    (hp : ∀ d ∈ P, Plain d) (hs : ∀ d ∈ P, StrictDecl P d) (E : ZEnv) (D : TsEnv) (hE : IsModule P E)
    (hD : IsTsModule P D) (mz mt : Method) (hmz : mz = .schema ∨ mz = .inlineSchema)
    (hmt : mt = .typeDef ∨ mt = .inline) (t : Ty) (hst : Strict P t) (s s' : Str) (h : Returns P mz t s)
    (h' : Returns P mt t s') (z : ZSchema) (T : TsType) (hz : readSchema s = some z) (hT : readType s' = some T)
    (v r : JsVal) (hv : ParsesTo E z v r) : Inhabits D false T v ∧ Inhabits D false T r :=
  C06_agree hg ht hw hp hE hD (Or.inr hs) hmz hmt (Or.inr hst) h h' hz hT hv

/-! ## It is false in general -/

/-- The types of the module, computed. -/
def tsModule (P : Program) (n : Nat) : TsEnv := fun ns name =>
  (P.zipIdx.find? (fun p => p.1.ns = ns ∧ p.1.name = name)).bind
    (fun p => (eval P n .typeDef (.named p.2)).bind readType)

theorem tsModule_ok {P : Program} {n : Nat} (hd : DistinctDecls P)
    (hr : ∀ i d, P[i]? = some d → ∃ s, eval P n .typeDef (.named i) = some s) : IsTsModule P (tsModule P n) := by
  intro i d hi
  obtain ⟨s, hs⟩ := hr i d hi
  refine ⟨s, ⟨n, hs⟩, ?_⟩
  show ((P.zipIdx 0).find? _).bind _ = _
  rw [find_zipIdx hd hi]
  simp [hs]

/-- `struct S { a: Option<u8> }`. -/
def exMissing : Program := [.struct (exStruct "S" [exField "a" (.option (.prim .u8))])]

/-- It is false: the schema of `exMissing` accepts `{}`, but the property `a` of the type is not optional. -/
theorem C06_violated : ¬ C06_statement := by
  intro h
  have hg : GoodNames exMissing := by
    intro d hd; simp only [exMissing, List.mem_singleton] at hd; subst hd; decide +kernel
  have ht : GoodTypeNames exMissing := by
    intro d hd; simp only [exMissing, List.mem_singleton] at hd; subst hd; decide +kernel
  have hw : WellStyled exMissing := by
    intro d hd; simp only [exMissing, List.mem_singleton] at hd; subst hd; decide +kernel
  have hp : ∀ d ∈ exMissing, Plain d := by
    intro d hd; simp only [exMissing, List.mem_singleton] at hd; subst hd; simp [Plain, exStruct]
  have hdist : DistinctDecls exMissing := by unfold DistinctDecls; decide +kernel
  have hs : ∀ m : Method, m = .schema ∨ m = .typeDef → ∀ i d, exMissing[i]? = some d →
      ∃ s, eval exMissing 6 m (.named i) = some s := by
    intro m hm i d hi
    match i, hi with
    | 0, _ => rcases hm with rfl | rfl <;> exact ⟨_, rfl⟩
    | i + 1, hi => simp [exMissing] at hi
  have hE : IsModule exMissing (moduleEnv exMissing 6) := moduleEnv_isModule hg hw hdist (hs .schema (Or.inl rfl))
  have hD : IsTsModule exMissing (tsModule exMissing 6) := tsModule_ok hdist (hs .typeDef (Or.inr rfl))
  obtain ⟨s, hsr⟩ := hs .schema (Or.inl rfl) 0 _ rfl
  have hr : Returns exMissing .typeDef (.named 0) (lit "{a: (number | undefined)}") := ⟨6, rfl⟩
  have hz := (eval_agree hg hw 6 .schema (.named 0) s (Or.inl rfl) hsr).read
  have hz' : zOf exMissing 6 .schema (.named 0) =
      some (.object [(lit "a", .optional (.number [.finite, .int, .gte 0, .lte 255]))]) := rfl
  rw [hz'] at hz
  have := (h exMissing hg ht hw hp _ _ hE hD (.named 0) s _ ⟨6, hsr⟩ hr _
    (.obj [(lit "a", false, .union [.name [lit "number"], .name [lit "undefined"]])]) hz rfl (.obj []) (.obj [])
    ⟨6, rfl⟩).1
  rw [inhabits_obj] at this
  obtain ⟨kvs, e, h⟩ := this
  injection e with e
  subst e
  exact absurd ((h _ List.mem_cons_self).2 rfl rfl).1 (by decide)

/-! ## The hypotheses are met -/

theorem exTs_distinct : DistinctDecls exTs := by unfold DistinctDecls; decide +kernel

theorem exTs_schemas : ∀ i d, exTs[i]? = some d → ∃ s, eval exTs 9 .schema (.named i) = some s := by
  intro i d hd
  match i, hd with
  | 0, _ => exact ⟨_, rfl⟩
  | 1, _ => exact ⟨_, rfl⟩
  | 2, _ => exact ⟨_, rfl⟩
  | 3, _ => exact ⟨_, rfl⟩
  | 4, _ => exact ⟨_, rfl⟩
  | 5, _ => exact ⟨_, rfl⟩
  | 6, _ => exact ⟨_, rfl⟩
  | n + 7, hd => simp [exTs] at hd

theorem exTs_module : IsModule exTs (moduleEnv exTs 9) :=
  moduleEnv_isModule exTs_good exTs_styled exTs_distinct exTs_schemas

theorem exTs_tsModule : IsTsModule exTs (tsModule exTs 9) := tsModule_ok exTs_distinct exTs_returns

/-- An adjacently tagged message, whose content refers to another declaration, is accepted by the schema of the
example program and therefore a value of its type. -/
example : ∃ s s' z T r, Returns exTs .schema (.named 4) s ∧ Returns exTs .typeDef (.named 4) s' ∧
    readSchema s = some z ∧ readType s' = some T ∧
    ParsesTo (moduleEnv exTs 9) z (.obj [(lit "t", .str (lit "At")),
      (lit "c", .obj [(lit "pos", .arr [.num (.fin (1 : Int)), .str (lit "x")])])]) r ∧
    Inhabits (tsModule exTs 9) true T (.obj [(lit "t", .str (lit "At")),
      (lit "c", .obj [(lit "pos", .arr [.num (.fin (1 : Int)), .str (lit "x")])])]) := by
  obtain ⟨s, hs⟩ := exTs_schemas 4 _ rfl
  obtain ⟨s', hs'⟩ := exTs_returns 4 _ rfl
  have hr := (eval_agree exTs_good exTs_styled 9 .schema (.named 4) s (Or.inl rfl) hs).read
  have hr' := (eval_agreeT exTs_good exTs_types exTs_styled 9 .typeDef (.named 4) s' (Or.inl rfl) hs').read
  obtain ⟨z, hz⟩ : ∃ z, zOf exTs 9 .schema (.named 4) = some z := ⟨_, rfl⟩
  obtain ⟨r, hp⟩ : ∃ r, parse (moduleEnv exTs 9) 12 z (.obj [(lit "t", .str (lit "At")),
      (lit "c", .obj [(lit "pos", .arr [.num (.fin (1 : Int)), .str (lit "x")])])]) = some (some r) := by
    injection hz with hz
    subst hz
    exact ⟨_, rfl⟩
  rw [hz] at hr
  refine ⟨s, s', z, _, r, ⟨9, hs⟩, ⟨9, hs'⟩, hr, hr', ⟨12, hp⟩, ?_⟩
  exact (C06_lenient_partial exTs exTs_good exTs_types exTs_styled exTs_plain _ _ exTs_module exTs_tsModule
    .schema .typeDef (Or.inl rfl) (Or.inl rfl) (.named 4) s s' ⟨9, hs⟩ ⟨9, hs'⟩ z _ hr hr' _ r ⟨12, hp⟩).1

/-- `struct Pair(u8, String)`, `#[serde(tag = "t", content = "c")] enum Msg { Text(String), At { pos: Pair, #[serde(default)] n: Option<u8> } }`. -/
def exStrict : Program :=
  [ .struct (exTuple "Pair" [exPos (.prim .u8), exPos (.prim .string)]),
    .enum (exEnum "Msg" (.adjacent (lit "t") (lit "c")) [exVariant "Text" .tuple [exPos (.prim .string)],
      exVariant "At" .named [exField "pos" (.named 0), { exField "n" (.option (.prim .u8)) with dflt := true }]]) ]

/-- The hypotheses of the strict theorem about declarations are met. -/
theorem exStrict_strict : ∀ d ∈ exStrict, StrictDecl exStrict d := by
  have h0 : NeverUndef exStrict (.named 0) := by
    refine .struct 0 (exTuple "Pair" [exPos (.prim .u8), exPos (.prim .string)]) rfl rfl ?_ ?_
    · intro _ f hf; cases hf
    · intro _ f hf; cases hf
  intro d hd
  simp only [exStrict, List.mem_cons, List.not_mem_nil, or_false] at hd
  rcases hd with rfl | rfl
  · refine ⟨fun t ht => (by cases ht), fun f hf => ?_⟩
    simp only [exTuple, exStruct, keptFields, exPos, exField, List.filter, Bool.not_false, List.mem_cons,
      List.not_mem_nil, or_false] at hf
    rcases hf with rfl | rfl
    · exact ⟨.prim _, fun _ => Or.inr (.prim _)⟩
    · exact ⟨.prim _, fun _ => Or.inr (.prim _)⟩
  · refine ⟨fun t ht => (by cases ht), fun v hv _ => ?_⟩
    simp only [exEnum, List.mem_cons, List.not_mem_nil, or_false] at hv
    rcases hv with rfl | rfl
    · refine ⟨fun f hf => ?_, fun _ _ f hf => ?_⟩
      · simp only [exVariant, keptFields, exPos, exField, List.filter, Bool.not_false, List.mem_singleton] at hf
        subst hf
        exact ⟨.prim _, fun _ => Or.inr (.prim _)⟩
      · simp only [exVariant, keptFields, exPos, exField, List.filter, Bool.not_false, List.cons.injEq, and_true] at hf
        subst hf
        exact ⟨rfl, .prim _⟩
    · refine ⟨fun f hf => ?_, fun _ h => by cases h⟩
      simp only [exVariant, keptFields, exField, List.filter, Bool.not_false, List.mem_cons,
        List.not_mem_nil, or_false] at hf
      rcases hf with rfl | rfl
      · exact ⟨.named _, fun _ => Or.inr h0⟩
      · exact ⟨.option _ (.prim _), fun _ => Or.inl rfl⟩

/-- A message with a missing property, which is optional in the type. -/
example : ∃ s s' z T r, Returns exStrict .schema (.named 1) s ∧ Returns exStrict .typeDef (.named 1) s' ∧
    readSchema s = some z ∧ readType s' = some T ∧
    ParsesTo (moduleEnv exStrict 9) z (.obj [(lit "t", .str (lit "At")),
      (lit "c", .obj [(lit "pos", .arr [.num (.fin (1 : Int)), .str (lit "x")])])]) r ∧
    Inhabits (tsModule exStrict 9) false T (.obj [(lit "t", .str (lit "At")),
      (lit "c", .obj [(lit "pos", .arr [.num (.fin (1 : Int)), .str (lit "x")])])]) := by
  have hg : GoodNames exStrict := by
    intro d hd; simp only [exStrict, List.mem_cons, List.not_mem_nil, or_false] at hd
    rcases hd with e | e <;> subst e <;> decide +kernel
  have ht : GoodTypeNames exStrict := by
    intro d hd; simp only [exStrict, List.mem_cons, List.not_mem_nil, or_false] at hd
    rcases hd with e | e <;> subst e <;> decide +kernel
  have hw : WellStyled exStrict := by
    intro d hd; simp only [exStrict, List.mem_cons, List.not_mem_nil, or_false] at hd
    rcases hd with e | e <;> subst e <;> decide +kernel
  have hpl : ∀ d ∈ exStrict, Plain d := by
    intro d hd; simp only [exStrict, List.mem_cons, List.not_mem_nil, or_false] at hd
    rcases hd with e | e <;> subst e <;> simp [Plain, exStruct, exTuple, exEnum, exVariant, exPos, exField]
  have hdist : DistinctDecls exStrict := by unfold DistinctDecls; decide +kernel
  have hret : ∀ m : Method, m = .schema ∨ m = .typeDef → ∀ i d, exStrict[i]? = some d →
      ∃ s, eval exStrict 9 m (.named i) = some s := by
    intro m hm i d hi
    match i, hi with
    | 0, _ => rcases hm with rfl | rfl <;> exact ⟨_, rfl⟩
    | 1, _ => rcases hm with rfl | rfl <;> exact ⟨_, rfl⟩
    | i + 2, hi => simp [exStrict] at hi
  have hE : IsModule exStrict (moduleEnv exStrict 9) := moduleEnv_isModule hg hw hdist (hret .schema (Or.inl rfl))
  have hD : IsTsModule exStrict (tsModule exStrict 9) := tsModule_ok hdist (hret .typeDef (Or.inr rfl))
  obtain ⟨s, hs⟩ := hret .schema (Or.inl rfl) 1 _ rfl
  obtain ⟨s', hs'⟩ := hret .typeDef (Or.inr rfl) 1 _ rfl
  have hr := (eval_agree hg hw 9 .schema (.named 1) s (Or.inl rfl) hs).read
  have hr' := (eval_agreeT hg ht hw 9 .typeDef (.named 1) s' (Or.inl rfl) hs').read
  obtain ⟨z, hz⟩ : ∃ z, zOf exStrict 9 .schema (.named 1) = some z := ⟨_, rfl⟩
  obtain ⟨r, hp⟩ : ∃ r, parse (moduleEnv exStrict 9) 12 z (.obj [(lit "t", .str (lit "At")),
      (lit "c", .obj [(lit "pos", .arr [.num (.fin (1 : Int)), .str (lit "x")])])]) = some (some r) := by
    injection hz with hz
    subst hz
    exact ⟨_, rfl⟩
  rw [hz] at hr
  refine ⟨s, s', z, _, r, ⟨9, hs⟩, ⟨9, hs'⟩, hr, hr', ⟨12, hp⟩, ?_⟩
  exact (C06_strict_partial exStrict hg ht hw hpl exStrict_strict _ _ hE hD .schema .typeDef (Or.inl rfl) (Or.inl rfl)
    (.named 1) (.named 1) s s' ⟨9, hs⟩ ⟨9, hs'⟩ z _ hr hr' _ r ⟨12, hp⟩).1

end Verif.Props
