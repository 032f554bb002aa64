import Verif.Zod.Again
import Verif.Props.Complete

/-!
# C77: validating a validated value again changes nothing
-/

namespace Verif.Props
open Verif Verif.Schema Verif.SchemaSpec Verif.Js Verif.Spec Verif.Zod

/-- The full property: what a schema returns, it does not reject, and returns unchanged. -/
def C77_statement : Prop :=
  ∀ (P : Program) (E : ZEnv), Valid P → GoodNames P → WellStyled P → (∀ d ∈ P, Plain d) → IsModule P E →
    ∀ (t : Ty) (s : Str) (z : ZSchema) (v r : JsVal), InScope P t → Returns P .schema t s → readSchema s = some z →
      ParsesTo E z v r → Unchanged E z r

/-- It is false: the schema of `Result<Option<u8>, String>` makes `{ Err: "e" }` of `{ Ok: "no number", Err: "e" }`, and `{}` of
`{ Err: "e" }`. -/
theorem C77_violated : ¬ C77_statement := by
  intro h
  have hw : WellStyled [] := by simp [WellStyled]
  have hg : GoodNames [] := by simp [GoodNames]
  obtain ⟨s, hs⟩ : ∃ s, eval [] 6 .schema (.result (.option (.prim .u8)) (.prim .string)) = some s := ⟨_, rfl⟩
  have hr := (eval_agree hg hw 6 .schema _ s (Or.inl rfl) hs).read
  have hz : zOf [] 6 .schema (.result (.option (.prim .u8)) (.prim .string)) =
    some (.union [.object [(lit "Ok", .optional (.number [.finite, .int, .gte 0, .lte 255]))],
      .object [(lit "Err", .string [])]]) := rfl
  rw [hz] at hr
  have := (h [] (moduleEnv [] 0) ⟨by simp, by simp⟩ hg hw (by simp) (by intro i d hd; simp at hd) _ s _
    (.obj [(lit "Ok", .str (lit "no number")), (lit "Err", .str (lit "e"))]) (.obj [(lit "Err", .str (lit "e"))])
    (.result (.option (.prim _)) (.prim _)) ⟨6, hs⟩ hr ⟨6, rfl⟩).2 (.obj []) ⟨6, rfl⟩
  cases this

/-- `#[serde(untagged)] enum Patch { Old { id: Option<u8> }, New { name: String } }`: the first case accepts `{}`. -/
def exUntagged : Program :=
  [ .enum (exEnum "Patch" .untagged [exVariant "Old" .named [exField "id" (.option (.prim .u8))],
      exVariant "New" .named [exField "name" (.prim .string)]]) ]

/-- An untagged enum whose first case has nothing but an optional field: the second validation takes the other case. -/
theorem C77_untagged_violated : ∃ (E : ZEnv) (s : Str) (z : ZSchema) (v r r' : JsVal), IsModule exUntagged E ∧
    Returns exUntagged .schema (.named 0) s ∧ readSchema s = some z ∧ ParsesTo E z v r ∧ ParsesTo E z r r' ∧ r' ≠ r := by
  have hg : GoodNames exUntagged := by
    intro d hd
    simp only [exUntagged, List.mem_cons, List.not_mem_nil, or_false] at hd
    subst hd
    decide +kernel
  have hw : WellStyled exUntagged := by
    intro d hd
    simp only [exUntagged, List.mem_cons, List.not_mem_nil, or_false] at hd
    subst hd
    decide +kernel
  have hx : ∀ i d, exUntagged[i]? = some d → ∃ s, eval exUntagged 8 .schema (.named i) = some s := by
    intro i d h
    match i, h with
    | 0, _ => exact ⟨_, rfl⟩
    | n + 1, h => simp [exUntagged] at h
  obtain ⟨s, hs⟩ := hx 0 _ rfl
  have hm := moduleEnv_isModule hg hw (by unfold DistinctDecls; decide +kernel) hx
  have hr := (eval_agree hg hw 8 .schema (.named 0) s (Or.inl rfl) hs).read
  have hz : zOf exUntagged 8 .schema (.named 0) =
    some (.union [.object [(lit "id", .optional (.number [.finite, .int, .gte 0, .lte 255]))],
      .object [(lit "name", .string [])]]) := rfl
  rw [hz] at hr
  refine ⟨_, s, _, .obj [(lit "id", .str (lit "x")), (lit "name", .str (lit "n"))], .obj [(lit "name", .str (lit "n"))], .obj [],
    hm, ⟨8, hs⟩, hr, ⟨8, rfl⟩, ⟨8, rfl⟩, fun e => by cases e⟩

/-- **C77.** If the cases of the enums and `Result`s of a program cannot be mistaken for each other, then what a schema
returns is not rejected by it, and validating it again returns it unchanged. -/
theorem C77_partial (P : Program) (E : ZEnv) (hg : GoodNames P) (hw : WellStyled P) (hpl : ∀ d ∈ P, Plain d) (hE : IsModule P E)
    (hP : ∀ d ∈ P, SteadyDecl P d) (m : Method) (hm : m = .schema ∨ m = .inlineSchema) (t : Ty) (ht : SteadyTy P t) (s : Str)
    (h : Returns P m t s) (z : ZSchema) (hz : readSchema s = some z) (v r : JsVal) (hv : ParsesTo E z v r) : Unchanged E z r := by
  obtain ⟨n, hn⟩ := h
  have hr := (eval_agree hg hw n m t s hm hn).read
  rw [hz] at hr
  have hEo := envOk_of_module hg hw hE
  obtain ⟨k, hk⟩ := hv
  have key := again (steady_env hEo hw hpl hP) k z v r (steady_zOf hEo hw hpl hP n m t z ht hr.symm) hk
  refine ⟨fun ⟨n', hn'⟩ => ?_, fun r' ⟨n', hn'⟩ => ?_⟩
  · cases key n' _ hn'
  · injection key n' _ hn'

/-- **C77, where validation ends.** If moreover no type is made of itself through nothing but boxes, newtypes, options,
conversions and untagged enums, then validating again does return the value. -/
theorem C77_returned_partial (P : Program) (E : ZEnv) (hg : GoodNames P) (hw : WellStyled P) (hpl : ∀ d ∈ P, Plain d) (hE : IsModule P E)
    (hP : ∀ d ∈ P, SteadyDecl P d) (hG : Guarded P) (m : Method) (hm : m = .schema ∨ m = .inlineSchema) (t : Ty) (ht : SteadyTy P t)
    (s : Str) (h : Returns P m t s) (z : ZSchema) (hz : readSchema s = some z) (v r : JsVal) (hv : ParsesTo E z v r) :
    ParsesTo E z r r := by
  obtain ⟨h1, h2⟩ := C77_partial P E hg hw hpl hE hP m hm t ht s h z hz v r hv
  obtain ⟨n, x, hx⟩ := C50_partial P E hg hw hpl hG hE m hm t s h z hz r
  cases x with
  | none => exact absurd ⟨n, hx⟩ h1
  | some r' =>
    have := h2 r' ⟨n, hx⟩
    subst this
    exact ⟨n, hx⟩

/-- The example program meets the hypotheses: a recursive struct, an externally, an internally and an adjacently tagged
enum. -/
theorem exZod_steady : ∀ d ∈ exZod, SteadyDecl exZod d := by
  intro d hd
  simp only [exZod, List.mem_cons, List.not_mem_nil, or_false] at hd
  have np : ∀ p, NeverUndef exZod (.prim p) := .prim
  have sp : ∀ p, SteadyTy exZod (.prim p) := .prim
  have sn : ∀ i, SteadyTy exZod (.named i) := .named
  have sv : SteadyTy exZod (.vec (.named 0)) := .vec _ (sn 0)
  have st : SteadyTy exZod (.vec (.tuple [.prim .i32, .prim .i32])) :=
    .vec _ (.tuple _ (by intro t ht; simp at ht; subst ht; exact sp _))
  rcases hd with e | e | e | e | e | e <;> subst e <;>
    simp [SteadyDecl, SteadyEnum, declTypes, fieldTypes, From.ty?, exStruct, exTuple, exEnum, exVariant, exPos, exField, keptFields,
      DistinctVariants, np, sp, sn, sv, st]
  all_goals decide +kernel

/-- `{ id: 1, name: "a", friends: [], shape: { Circle: 2 }, extra: null }` is validated to the same without `extra`, and that
to itself. -/
example : let r := JsVal.obj [(lit "id", .num (.fin (1 : Int))), (lit "name", .str (lit "a")), (lit "friends", .arr []),
      (lit "shape", .obj [(lit "Circle", .num (.fin (2 : Int)))])]
    let v := JsVal.obj [(lit "id", .num (.fin (1 : Int))), (lit "name", .str (lit "a")), (lit "friends", .arr []),
      (lit "shape", .obj [(lit "Circle", .num (.fin (2 : Int)))]), (lit "extra", .null)]
    ∃ s z, Returns exZod .schema (.named 0) s ∧ readSchema s = some z ∧ ParsesTo (moduleEnv exZod 6) z v r ∧
      ParsesTo (moduleEnv exZod 6) z r r := by
  intro r v
  obtain ⟨s, hs⟩ := exZod_returns 0 _ rfl
  have hr := (eval_agree exZod_good exZod_styled 6 .schema (.named 0) s (Or.inl rfl) hs).read
  obtain ⟨z, hz⟩ : ∃ z, zOf exZod 6 .schema (.named 0) = some z := ⟨_, rfl⟩
  have hp : ∃ n, parse (moduleEnv exZod 6) n z v = some (some r) := by
    cases hz
    exact ⟨12, rfl⟩
  rw [hz] at hr
  exact ⟨s, z, ⟨6, hs⟩, hr, hp, C77_returned_partial exZod _ exZod_good exZod_styled exZod_plain exZod_module exZod_steady exZod_guarded
    .schema (Or.inl rfl) (.named 0) (.named 0) s ⟨6, hs⟩ z hr v r hp⟩

end Verif.Props
