import Verif.Ts.Unwrap
import Verif.Ts.Alternatives
import Verif.Props.Types
import Verif.Props.Wrappers

/-!
# C83: wrappers make no difference to the values of TypeScript types
-/

namespace Verif.Props
open Verif Verif.Schema Verif.SchemaSpec Verif.Js Verif.Ts Verif.Spec Verif.Zod

theorem goodTypeNames_without {P : Program} (h : GoodTypeNames P) : GoodTypeNames (withoutWrappers P) := by
  intro d hd
  obtain ⟨d, hm, rfl⟩ := List.mem_map.1 hd
  rw [(decl_mapTy_names strip d).1]
  exact h d hm

theorem distinct_without {P : Program} (h : DistinctDecls P) : DistinctDecls (withoutWrappers P) := by
  unfold DistinctDecls withoutWrappers
  rw [List.map_map]
  have : ((fun d : Decl => (d.ns, d.name)) ∘ Decl.mapTy strip) = fun d => (d.ns, d.name) := by
    funext d
    show ((Decl.mapTy strip d).ns, (Decl.mapTy strip d).name) = _
    rw [(decl_mapTy_names strip d).1, (decl_mapTy_names strip d).2]
  rw [this]
  exact h

theorem plain_without {P : Program} (h : ∀ d ∈ P, Plain d) : ∀ d ∈ withoutWrappers P, Plain d := by
  intro d hd
  obtain ⟨d, hm, rfl⟩ := List.mem_map.1 hd
  have := h d hm
  cases d with
  | struct s =>
    obtain ⟨h1, h2⟩ := this
    refine ⟨fun hs f hf hk => ?_, fun ht => ?_⟩
    · obtain ⟨g, hg, rfl⟩ := List.mem_map.1 hf
      exact h1 hs g hg hk
    · obtain ⟨f, hf⟩ := h2 ht
      refine ⟨Field.mapTy strip f, ?_⟩
      show (s.fields.map (Field.mapTy strip)).filter _ = _
      rw [filter_mapTy, hf]
      rfl
  | enum e =>
    intro v hv hu
    obtain ⟨w, hw, rfl⟩ := List.mem_map.1 hv
    have := this w hw hu
    simp [this]

/-- If no flattened type falls apart, none does when the wrappers are removed. -/
theorem noFlattenedUnion_without {P : Program} (hg : GoodNames P) (ht : GoodTypeNames P) (hw : WellStyled P)
    (hp : ∀ d ∈ P, Plain d) (hf : NoFlattenedUnion P) {D : TsEnv} (hD : IsTsModule P D) : NoFlattenedUnion (withoutWrappers P) := by
  intro s' hs' hfr f' hf' hsk hfl hdf text hr ha
  obtain ⟨d, hm, e⟩ := List.mem_map.1 hs'
  cases d with
  | enum e' => cases e
  | struct s =>
    cases e
    obtain ⟨f, hfm, rfl⟩ := List.mem_map.1 hf'
    have hfr : s.from_.ty? = none := by
      have : (From.mapTy strip s.from_).ty? = none := hfr
      rw [from_mapTy] at this
      simpa using this
    obtain ⟨i, hi⟩ := List.mem_iff_getElem?.1 hm
    obtain ⟨x, ⟨n, hx⟩, -⟩ := hD i _ hi
    cases n with
    | zero => cases hx
    | succ n =>
      obtain ⟨ps, hb, hrun⟩ := eval_succ.1 hx
      obtain ⟨d', impl, hd', hi', rfl⟩ := body_named hb
      rw [hi] at hd'
      cases hd'
      obtain ⟨docs, sch, td, _, _, _, hs, e⟩ := deriveStruct_ok hi'
      rw [hfr] at e
      subst e
      obtain ⟨y, hy⟩ := runPieces_call_mem hrun (structTypeDef_mem (hp _ hm) hs
        (List.mem_map.2 ⟨f, List.mem_filter.2 ⟨hfm, by have h0 : f.skipDe = false := hsk; simp [h0]⟩, rfl⟩))
      have hno := hf s hm hfr f hfm hsk hfl hdf y ⟨n, hy⟩
      rw [fallsApart_iff (eval_agreeT hg ht hw n _ _ _ (.inr rfl) hy)] at hno
      obtain ⟨n', hn'⟩ := hr
      have hn' : eval (bare P) n' .inline (strip f.ty) = some text := hn'
      rw [fallsApart_iff (eval_agreeT (goodNames_without hg) (goodTypeNames_without ht) (wellStyled_without hw) n' _ _ _ (.inr rfl) hn')] at ha
      obtain ⟨c, c', r, hc⟩ := ha
      have hc : dOf (bare P) n' .inline (strip f.ty) = c :: c' :: r := hc
      have hle := (alternatives_bare hg ht hw hp n).1 .inline f.ty y (.inr rfl) hy n'
      rw [hc] at hle
      match hd : dOf P n .inline f.ty, hle with
      | a :: b :: l, _ => exact hno ⟨a, b, l, hd⟩

/-- The full property: the types generated for a program and for the same program without wrappers have the same values. -/
def C83_statement : Prop :=
  ∀ (P : Program), GoodNames P → GoodTypeNames P → WellStyled P → (∀ d ∈ P, Plain d) → DistinctDecls P →
    ∀ (D D' : TsEnv), IsTsModule P D → IsTsModule (withoutWrappers P) D' → ∀ (m : Method), (m = .typeDef ∨ m = .inline) →
      ∀ (t : Ty) (s s' : Str), Returns P m t s → Returns (withoutWrappers P) m (strip t) s' →
        ∀ (T T' : TsType), readType s = some T → readType s' = some T' →
          ∀ (lenient : Bool) (v : JsVal), Inhabits D lenient T v ↔ Inhabits D' lenient T' v

theorem meantModule {P : Program} (hg : GoodNames P) (ht : GoodTypeNames P) (hw : WellStyled P) (hp : ∀ d ∈ P, Plain d)
    (hf : NoFlattenedUnion P) {D : TsEnv} (hD : IsTsModule P D) : MeantModule P D := by
  intro i d hd
  obtain ⟨s, hs, e⟩ := hD i d hd
  obtain ⟨T, hT, U, hU, hsame⟩ := C07_partial P hg ht hw hp hf .typeDef (.inl rfl) (.named i) s hs
  exact ⟨T, e.trans hT, U, hU, hsame⟩

/-- **C83.** If no flattened field (without default) has a type whose text falls apart behind `&`, a type with wrappers and
the type without them, whether it is written out or referred to, have the same values. -/
theorem C83_partial (P : Program) (hg : GoodNames P) (ht : GoodTypeNames P) (hw : WellStyled P) (hp : ∀ d ∈ P, Plain d)
    (hd : DistinctDecls P) (hf : NoFlattenedUnion P) (D D' : TsEnv) (hD : IsTsModule P D) (hD' : IsTsModule (withoutWrappers P) D')
    (m : Method) (hm : m = .typeDef ∨ m = .inline) (t : Ty) (s s' : Str) (h : Returns P m t s)
    (h' : Returns (withoutWrappers P) m (strip t) s') (T T' : TsType) (hT : readType s = some T) (hT' : readType s' = some T')
    (lenient : Bool) (v : JsVal) : Inhabits D lenient T v ↔ Inhabits D' lenient T' v := by
  have hf' := noFlattenedUnion_without hg ht hw hp hf hD
  obtain ⟨T1, e1, U1, m1, s1⟩ := C07_partial P hg ht hw hp hf m hm t s h
  obtain ⟨T2, e2, U2, m2, s2⟩ := C07_partial _ (goodNames_without hg) (goodTypeNames_without ht) (wellStyled_without hw)
    (plain_without hp) hf' m hm (strip t) s' h'
  rw [hT] at e1; cases e1
  rw [hT'] at e2; cases e2
  rw [s1 D lenient v, s2 D' lenient v]
  exact bare_values hd (distinct_without hd) (meantModule hg ht hw hp hf hD)
    (meantModule (goodNames_without hg) (goodTypeNames_without ht) (wellStyled_without hw) (plain_without hp) hf' hD') id m1 m2 lenient v

/-- **C83, where a reference takes the place of a type.** A wrapped type that is written out has the values of the
reference to the type without the wrapper: what `Box<T>` writes and what `T` writes as the type of a field. -/
theorem C83_reference_partial (P : Program) (hg : GoodNames P) (ht : GoodTypeNames P) (hw : WellStyled P) (hp : ∀ d ∈ P, Plain d)
    (hd : DistinctDecls P) (hf : NoFlattenedUnion P) (D D' : TsEnv) (hD : IsTsModule P D) (hD' : IsTsModule (withoutWrappers P) D')
    (t : Ty) (s s' : Str) (h : Returns P .typeDef t s)
    (h' : Returns (withoutWrappers P) .inline (strip t) s') (T T' : TsType) (hT : readType s = some T) (hT' : readType s' = some T')
    (lenient : Bool) (v : JsVal) : Inhabits D lenient T v ↔ Inhabits D' lenient T' v := by
  have hf' := noFlattenedUnion_without hg ht hw hp hf hD
  obtain ⟨T1, e1, U1, m1, s1⟩ := C07_partial P hg ht hw hp hf .typeDef (.inl rfl) t s h
  obtain ⟨T2, e2, U2, m2, s2⟩ := C07_partial _ (goodNames_without hg) (goodTypeNames_without ht) (wellStyled_without hw)
    (plain_without hp) hf' .inline (.inr rfl) (strip t) s' h'
  rw [hT] at e1; cases e1
  rw [hT'] at e2; cases e2
  rw [s1 D lenient v, s2 D' lenient v]
  exact bare_values hd (distinct_without hd) (meantModule hg ht hw hp hf hD)
    (meantModule (goodNames_without hg) (goodTypeNames_without ht) (wellStyled_without hw) (plain_without hp) hf' hD')
    (fun h => absurd h (by decide)) m1 m2 lenient v

/-! ## Why the hypothesis is needed -/

/-- `enum E { A(u8), B(String) }`, `struct S { a: String, #[serde(flatten)] e: Box<E> }`. -/
def exBoxed : Program :=
  [ .enum (exEnum "E" .external [exVariant "A" .tuple [exPos (.prim .u8)], exVariant "B" .tuple [exPos (.prim .string)]]),
    .struct (exStruct "S" [exField "a" (.prim .string), { exField "e" (.wrap .box (.named 0)) with flatten := true }]) ]

theorem exBoxed_bare : withoutWrappers exBoxed =
  [ .enum (exEnum "E" .external [exVariant "A" .tuple [exPos (.prim .u8)], exVariant "B" .tuple [exPos (.prim .string)]]),
    .struct (exStruct "S" [exField "a" (.prim .string), { exField "e" (.named 0) with flatten := true }]) ] := by
  simp [withoutWrappers, exBoxed, Decl.mapTy, exStruct, exEnum, exVariant, exPos, exField, Field.mapTy, strip, From.mapTy]

theorem exBoxed_good : GoodNames exBoxed := by
  intro d hd
  simp only [exBoxed, List.mem_cons, List.not_mem_nil, or_false] at hd
  rcases hd with rfl | rfl <;> decide +kernel

theorem exBoxed_types : GoodTypeNames exBoxed := by
  intro d hd
  simp only [exBoxed, List.mem_cons, List.not_mem_nil, or_false] at hd
  rcases hd with rfl | rfl <;> decide +kernel

theorem exBoxed_styled : WellStyled exBoxed := by
  intro d hd
  simp only [exBoxed, List.mem_cons, List.not_mem_nil, or_false] at hd
  rcases hd with rfl | rfl <;> decide +kernel

theorem exBoxed_plain : ∀ d ∈ exBoxed, Plain d := by
  intro d hd
  simp only [exBoxed, List.mem_cons, List.not_mem_nil, or_false] at hd
  rcases hd with rfl | rfl <;> simp [Plain, exStruct, exEnum, exVariant]

theorem exBoxed_distinct : DistinctDecls exBoxed := by unfold DistinctDecls; decide +kernel

theorem exBoxed_module : IsTsModule exBoxed (tsModule exBoxed 9) := by
  refine tsModule_ok exBoxed_distinct (fun i d hd => ?_)
  match i, hd with
  | 0, _ => exact ⟨_, rfl⟩
  | 1, _ => exact ⟨_, rfl⟩
  | n + 2, hd => simp [exBoxed] at hd

theorem exBoxed_module' : IsTsModule (withoutWrappers exBoxed) (tsModule (withoutWrappers exBoxed) 9) := by
  refine tsModule_ok (distinct_without exBoxed_distinct) (fun i d hd => ?_)
  rw [exBoxed_bare] at hd ⊢
  match i, hd with
  | 0, _ => exact ⟨_, rfl⟩
  | 1, _ => exact ⟨_, rfl⟩
  | n + 2, hd => simp at hd

theorem exBoxed_text : Returns exBoxed .typeDef (.named 1) (lit "{a: string} & { A: number } | { B: string }") := ⟨9, rfl⟩

theorem exBoxed_text' : Returns (withoutWrappers exBoxed) .typeDef (strip (.named 1)) (lit "{a: string} & Ns.E") := by
  rw [exBoxed_bare, strip]
  exact ⟨9, rfl⟩

/-- It is false: with the box, `{ B: "x" }` is a value of the type of `S`; without it, `a` is required. -/
theorem C83_violated : ¬ C83_statement := by
  intro hst
  have h := hst exBoxed exBoxed_good exBoxed_types exBoxed_styled exBoxed_plain exBoxed_distinct _ _ exBoxed_module exBoxed_module'
    .typeDef (.inl rfl) (.named 1) _ _ exBoxed_text exBoxed_text'
    (.union [.inter [.obj [(lit "a", false, .name [lit "string"])], .obj [(lit "A", false, .name [lit "number"])]],
      .obj [(lit "B", false, .name [lit "string"])]])
    (.inter [.obj [(lit "a", false, .name [lit "string"])], .name [lit "Ns", lit "E"]]) rfl rfl false (.obj [(lit "B", .str (lit "x"))])
  have h1 := h.1 (.union _ (.obj [(lit "B", false, .name [lit "string"])]) _ (by simp) (by
    rw [inhabits_obj]
    refine ⟨_, rfl, fun p hp => ?_⟩
    rw [List.mem_singleton] at hp
    subst hp
    exact ⟨fun _ => .string _, fun h => by cases h⟩))
  rw [inhabits_inter] at h1
  have h1 := h1 _ List.mem_cons_self
  rw [inhabits_obj] at h1
  obtain ⟨kvs, e, h1⟩ := h1
  cases e
  exact absurd ((h1 _ List.mem_cons_self).2 rfl rfl).1 (by decide)

/-! ## The hypotheses are met -/

theorem exWrapped_types : GoodTypeNames exWrapped := by
  intro d hd
  simp only [exWrapped, List.mem_cons, List.not_mem_nil, or_false] at hd
  rcases hd with rfl | rfl <;> decide +kernel

theorem exWrapped_plain : ∀ d ∈ exWrapped, Plain d := by
  intro d hd
  simp only [exWrapped, List.mem_cons, List.not_mem_nil, or_false] at hd
  rcases hd with rfl | rfl <;> simp [Plain, exStruct]

theorem exWrapped_distinct : DistinctDecls exWrapped := by unfold DistinctDecls; decide +kernel

theorem exWrapped_noUnion : NoFlattenedUnion exWrapped := by
  intro s hs _ f hf _ hfl
  simp only [exWrapped, List.mem_cons, List.not_mem_nil, or_false] at hs
  rcases hs with e | e <;> cases e <;> simp only [exStruct, List.mem_cons, List.not_mem_nil, or_false] at hf
  · rcases hf with rfl | rfl | rfl <;> cases hfl
  · subst hf; cases hfl

theorem exWrapped_tsModule : IsTsModule exWrapped (tsModule exWrapped 9) := by
  refine tsModule_ok exWrapped_distinct (fun i d hd => ?_)
  match i, hd with
  | 0, _ => exact ⟨_, rfl⟩
  | 1, _ => exact ⟨_, rfl⟩
  | n + 2, hd => simp [exWrapped] at hd

theorem exWrapped_tsModule' : IsTsModule (withoutWrappers exWrapped) (tsModule (withoutWrappers exWrapped) 9) := by
  refine tsModule_ok (distinct_without exWrapped_distinct) (fun i d hd => ?_)
  rw [exWrapped_bare] at hd ⊢
  match i, hd with
  | 0, _ => exact ⟨_, rfl⟩
  | 1, _ => exact ⟨_, rfl⟩
  | n + 2, hd => simp at hd

theorem exWrapped_text : Returns exWrapped .typeDef (.named 0)
    (lit "{home: {street: string},\nothers: Array<{street: string}>,\nage: number}") := ⟨9, rfl⟩

theorem exWrapped_text' : Returns (withoutWrappers exWrapped) .typeDef (strip (.named 0))
    (lit "{home: Ns.Address,\nothers: Array<{street: string}>,\nage: number}") := by
  rw [exWrapped_bare, strip]
  exact ⟨9, rfl⟩

/-- The two texts differ, their values do not. -/
example (lenient : Bool) (v : JsVal) : ∃ T T', readType (lit "{home: {street: string},\nothers: Array<{street: string}>,\nage: number}") = some T ∧
    readType (lit "{home: Ns.Address,\nothers: Array<{street: string}>,\nage: number}") = some T' ∧
    (Inhabits (tsModule exWrapped 9) lenient T v ↔ Inhabits (tsModule (withoutWrappers exWrapped) 9) lenient T' v) := by
  obtain ⟨T, hT⟩ := C07_parses exWrapped exWrapped_good exWrapped_types exWrapped_styled .typeDef (.inl rfl) _ _ exWrapped_text
  obtain ⟨T', hT'⟩ := C07_parses _ (goodNames_without exWrapped_good) (goodTypeNames_without exWrapped_types)
    (wellStyled_without exWrapped_styled) .typeDef (.inl rfl) _ _ exWrapped_text'
  exact ⟨T, T', hT, hT', C83_partial exWrapped exWrapped_good exWrapped_types exWrapped_styled exWrapped_plain exWrapped_distinct
    exWrapped_noUnion _ _ exWrapped_tsModule exWrapped_tsModule' .typeDef (.inl rfl) (.named 0) _ _ exWrapped_text exWrapped_text' T T' hT hT' lenient v⟩

end Verif.Props
