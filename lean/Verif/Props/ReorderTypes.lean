import Verif.Ts.Reorder
import Verif.Props.TypesGrow
import Verif.Props.Reorder

/-!
# C85: the order of named fields and the TypeScript types
-/

namespace Verif.Props
open Verif Verif.Schema Verif.SchemaSpec Verif.Js Verif.Spec Verif.Zod Verif.Ts

/-- **C85, TypeScript types.** Let named fields be written in another order, but flattened fields in the same order. Then the types have
the same values, for both readings of missing properties. -/
theorem C85_types (P P' : Program) (hP : ReorderedProgram P P') (hf : SameFlattened P P') (hs : ∀ d ∈ P, ∀ u ∈ declTypes d, InScope P u)
    (hg : GoodNames P) (hgt : GoodTypeNames P) (hw : WellStyled P) (hg' : GoodNames P') (hgt' : GoodTypeNames P') (hw' : WellStyled P')
    (D D' : TsEnv) (hD : IsTsModule P D) (hD' : IsTsModule P' D') (m : Method) (hm : m = .typeDef ∨ m = .inline) (t : Ty)
    (ht : InScope P t) (s s' : Str) (h : Returns P m t s) (h' : Returns P' m t s') (T T' : TsType) (hT : readType s = some T)
    (hT' : readType s' = some T') (lenient : Bool) (v : JsVal) : Inhabits D lenient T v ↔ Inhabits D' lenient T' v :=
  shuffled_values (w := False) (T₀ := fun _ => False) (fun _ h => h) (shuffled_of_reordered hP) hf False.elim hs hg hgt hw hg' hgt' hw' hD
    hD' hm ht h h' hT hT' lenient v

/-! ## The hypotheses are met -/

theorem exAfter_flat : SameFlattened exAfter exTurned := rfl

theorem exAfter_types : GoodTypeNames exAfter := by
  intro d hd
  simp only [exAfter, List.mem_cons, List.not_mem_nil, or_false] at hd
  rcases hd with rfl | rfl <;> decide +kernel

theorem exTurned_types : GoodTypeNames exTurned := by
  intro d hd
  simp only [exTurned, List.mem_cons, List.not_mem_nil, or_false] at hd
  rcases hd with rfl | rfl <;> decide +kernel

theorem exAfter_tsModule : IsTsModule exAfter (tsModule exAfter 9) := by
  refine tsModule_ok (by unfold DistinctDecls; decide +kernel) ?_
  intro i d hd
  match i, hd with
  | 0, _ => exact ⟨_, rfl⟩
  | 1, _ => exact ⟨_, rfl⟩
  | n + 2, hd => simp [exAfter] at hd

theorem exTurned_tsModule : IsTsModule exTurned (tsModule exTurned 9) := by
  refine tsModule_ok (by unfold DistinctDecls; decide +kernel) ?_
  intro i d hd
  match i, hd with
  | 0, _ => exact ⟨_, rfl⟩
  | 1, _ => exact ⟨_, rfl⟩
  | n + 2, hd => simp [exTurned] at hd

theorem exAfter_scope : ∀ d ∈ exAfter, ∀ u ∈ declTypes d, InScope exAfter u := by
  intro d hd u hu
  simp only [exAfter, List.mem_cons, List.not_mem_nil, or_false] at hd
  rcases hd with rfl | rfl
  · simp [declTypes, fieldTypes, exStruct, exField] at hu
    rcases hu with rfl | rfl | rfl | hu
    · exact .prim _
    · exact .prim _
    · exact .named (by decide)
    · cases hu
  · simp [declTypes, fieldTypes, exEnum, exVariant, exField] at hu
    rcases hu with rfl | hu
    · exact .prim _
    · cases hu

def exTurnedUserT : TsType :=
  .obj [(lit "last", false, .name [lit "Ns", lit "Event"]), (lit "nick", true, .union [.name [lit "string"], .name [lit "undefined"]]),
    (lit "id", false, .name [lit "number"])]

/-- The types of `User` in both orders, in any module of the second program. -/
example (D : TsEnv) (hD : IsTsModule exTurned D) (v : JsVal) :
    Inhabits (tsModule exAfter 9) false exWiderUserT v ↔ Inhabits D false exTurnedUserT v :=
  C85_types exAfter exTurned exAfter_turned exAfter_flat exAfter_scope exAfter_good exAfter_types exAfter_styled exTurned_good
    exTurned_types exTurned_styled _ D exAfter_tsModule hD .typeDef (Or.inl rfl) (.named 0) (.named (by decide))
    (lit "{id: number,\nnick?: string | undefined,\nlast: Ns.Event}") (lit "{last: Ns.Event,\nnick?: string | undefined,\nid: number}")
    ⟨9, rfl⟩ ⟨9, rfl⟩ _ _ rfl rfl false v

/-! ## What is needed -/

/-- `struct A { a: String }`. -/
def exFlatA : Decl := .struct (exStruct "A" [exField "a" (.prim .string)])
/-- `#[serde(flatten)] r: Result<u8, String>`. -/
def exFlatR : Field := { exField "r" (.result (.prim .u8) (.prim .string)) with flatten := true }
/-- `#[serde(flatten)] b: A`. -/
def exFlatB : Field := { exField "b" (.named 0) with flatten := true }

theorem no_undefined_string {D : TsEnv} {l : Bool} : ¬ Inhabits D l (.name [lit "string"]) .undefined := by
  intro h
  cases h

/-- **C85, why flattened fields must keep their order.** With `r` before `b` the type is `{} & { Ok: number } | { Err: string } & Ns.A`,
in the other order it is `{} & Ns.A & { Ok: number } | { Err: string }`. Only the first has the value `{ Ok: 1 }`. -/
theorem C85_types_flattened_order :
    ReorderedProgram [exFlatA, .struct (exStruct "S" [exFlatR, exFlatB])] [exFlatA, .struct (exStruct "S" [exFlatB, exFlatR])] ∧
    Returns [exFlatA, .struct (exStruct "S" [exFlatR, exFlatB])] .typeDef (.named 1) (lit "{} & { Ok: number } | { Err: string } & Ns.A") ∧
    Returns [exFlatA, .struct (exStruct "S" [exFlatB, exFlatR])] .typeDef (.named 1) (lit "{} & Ns.A & { Ok: number } | { Err: string }") ∧
    ∃ T T', readType (lit "{} & { Ok: number } | { Err: string } & Ns.A") = some T ∧
      readType (lit "{} & Ns.A & { Ok: number } | { Err: string }") = some T' ∧
      (∀ D, Inhabits D false T (.obj [(lit "Ok", .num (.fin (1 : Int)))])) ∧
      ∀ D, IsTsModule [exFlatA, .struct (exStruct "S" [exFlatB, exFlatR])] D → ∀ lenient,
        ¬ Inhabits D lenient T' (.obj [(lit "Ok", .num (.fin (1 : Int)))]) := by
  refine ⟨.cons (.same _) (.cons (.struct (exStruct "S" [exFlatR, exFlatB]) _ rfl rfl (.swap _ _ _)) .nil), ⟨9, rfl⟩, ⟨9, rfl⟩,
    .union [.inter [.obj [], .obj [(lit "Ok", false, .name [lit "number"])]],
      .inter [.obj [(lit "Err", false, .name [lit "string"])], .name [lit "Ns", lit "A"]]],
    .union [.inter [.obj [], .name [lit "Ns", lit "A"], .obj [(lit "Ok", false, .name [lit "number"])]],
      .obj [(lit "Err", false, .name [lit "string"])]], rfl, rfl, fun D => ?_, fun D hD l hv => ?_⟩
  · refine .union _ _ _ List.mem_cons_self (.inter _ _ (fun t ht => ?_))
    simp only [List.mem_cons, List.not_mem_nil, or_false] at ht
    rcases ht with rfl | rfl
    · exact .obj _ _ (fun p hp => by cases hp) (fun p hp => by cases hp) (fun p hp => by cases hp)
    · rw [inhabits_obj]
      refine ⟨_, rfl, fun p hp => ?_⟩
      rw [List.mem_singleton] at hp
      subst hp
      exact ⟨fun _ => .number _, fun h => by cases h⟩
  · rw [inhabits_union] at hv
    obtain ⟨t, ht, hv⟩ := hv
    simp only [List.mem_cons, List.not_mem_nil, or_false] at ht
    rcases ht with rfl | rfl
    · cases hv with
      | inter _ _ hv =>
        have h1 := hv _ (List.mem_cons_of_mem _ List.mem_cons_self)
        obtain ⟨s, ⟨n, hs⟩, hd⟩ := hD 0 _ rfl
        have hA : Returns [exFlatA, .struct (exStruct "S" [exFlatB, exFlatR])] .typeDef (.named 0) (lit "{a: string}") := ⟨9, rfl⟩
        obtain ⟨k, hA⟩ := hA
        have e := (eval_mono (Nat.le_max_left n k) hs).symm.trans (eval_mono (Nat.le_max_right n k) hA)
        cases e
        cases h1 with
        | ref _ _ t _ ht hv =>
          have e2 : D (lit "Ns") (lit "A") = some (.obj [(lit "a", false, .name [lit "string"])]) := hd.trans rfl
          rw [e2] at ht
          cases ht
          rw [inhabits_obj] at hv
          obtain ⟨kvs, e, hv⟩ := hv
          injection e with e
          subst e
          have : Inhabits D l (.name [lit "string"]) .undefined := ((hv _ List.mem_cons_self).2 rfl rfl).2
          exact no_undefined_string this
    · rw [inhabits_obj] at hv
      obtain ⟨kvs, e, hv⟩ := hv
      injection e with e
      subst e
      have : Inhabits D l (.name [lit "string"]) .undefined := ((hv _ List.mem_cons_self).2 rfl rfl).2
      exact no_undefined_string this

end Verif.Props
