import Verif.Ts.Rename
import Verif.Props.ReorderTypes
import Verif.Props.Rename

/-!
# C87: what a type is called and the TypeScript types
-/

namespace Verif.Props
open Verif Verif.Schema Verif.SchemaSpec Verif.Js Verif.Spec Verif.Zod Verif.Ts

/-- **C87, TypeScript types.** Let the types of a program have other names or be in other namespaces. Then the TypeScript types have
the same values, for both readings of missing properties. -/
theorem C87_types (f : Str → Str → Str × Str) (P : Program) (hs : ∀ d ∈ P, ∀ u ∈ declTypes d, InScope P u) (hg : GoodNames P)
    (hgt : GoodTypeNames P) (hw : WellStyled P) (hg' : GoodNames (renameProgram f P)) (hgt' : GoodTypeNames (renameProgram f P))
    (hw' : WellStyled (renameProgram f P)) (D D' : TsEnv) (hD : IsTsModule P D) (hD' : IsTsModule (renameProgram f P) D') (m : Method)
    (hm : m = .typeDef ∨ m = .inline) (t : Ty) (ht : InScope P t) (s s' : Str) (h : Returns P m t s)
    (h' : Returns (renameProgram f P) m t s') (T T' : TsType) (hT : readType s = some T) (hT' : readType s' = some T') (lenient : Bool)
    (v : JsVal) : Inhabits D lenient T v ↔ Inhabits D' lenient T' v :=
  renamed_same hs hg hgt hw hg' hgt' hw' hD hD' hm ht h h' hT hT' lenient v

/-! ## The hypotheses are met -/

theorem exMoved_types : GoodTypeNames exMoved := by
  intro d hd
  simp only [exMoved, renameProgram, exAfter, List.map_cons, List.map_nil, List.mem_cons, List.not_mem_nil, or_false] at hd
  rcases hd with rfl | rfl <;> decide +kernel

theorem exMoved_tsModule : IsTsModule exMoved (tsModule exMoved 9) := by
  refine tsModule_ok (by unfold DistinctDecls; decide +kernel) ?_
  intro i d hd
  match i, hd with
  | 0, _ => exact ⟨_, rfl⟩
  | 1, _ => exact ⟨_, rfl⟩
  | n + 2, hd => simp [exMoved, renameProgram, exAfter] at hd

def exDtoUserT : TsType :=
  .obj [(lit "id", false, .name [lit "number"]), (lit "nick", true, .union [.name [lit "string"], .name [lit "undefined"]]),
    (lit "last", false, .name [lit "Api", lit "EventDto"])]

/-- The types of the user under both names. -/
example (lenient : Bool) (v : JsVal) :
    Inhabits (tsModule exAfter 9) lenient exWiderUserT v ↔ Inhabits (tsModule exMoved 9) lenient exDtoUserT v :=
  C87_types exDto exAfter exAfter_scope exAfter_good exAfter_types exAfter_styled exMoved_good exMoved_types exMoved_styled _ _
    exAfter_tsModule exMoved_tsModule .typeDef (Or.inl rfl) (.named 0) (.named (by decide))
    (lit "{id: number,\nnick?: string | undefined,\nlast: Ns.Event}") (lit "{id: number,\nnick?: string | undefined,\nlast: Api.EventDto}")
    ⟨9, rfl⟩ ⟨9, rfl⟩ _ _ rfl rfl lenient v

end Verif.Props
