import Verif.Zod.Args
import Verif.Props.Sound

/-!
# C71: arguments mean on the server what they mean in the client
-/

namespace Verif.Props
open Verif Verif.Schema Verif.SchemaSpec Verif.Js Verif.Zod Verif.Spec Verif.ArgsSpec

/-- The full property: two values that the schema of a type accepts, that are sent as the same document, and whose
document serde accepts, are the same value (up to what `undefined` stands for). Otherwise the server takes one of them
for the other. -/
def C71_statement : Prop :=
  ∀ (P : Program) (E : ZEnv), Valid P → GoodNames P → WellStyled P → IsModule P E → ∀ (t : Ty) (s : Str)
    (z : ZSchema) (v₁ v₂ : JsVal) (j : Json), InScope P t → Returns P .schema t s → readSchema s = some z →
    Accepts E z v₁ → Accepts E z v₂ → stringify v₁ = some (some j) → stringify v₂ = some (some j) → De P t j →
    tidy v₁ = tidy v₂

theorem C71_refute (t : Ty) (n : Nat) (z : ZSchema) (v₁ v₂ : JsVal) (j : Json) (ht : InScope [] t)
    (hn : zOf [] n .schema t = some z) (he : ∃ s, eval [] n .schema t = some s) (h₁ : Accepts exEnv0 z v₁)
    (h₂ : Accepts exEnv0 z v₂) (hj₁ : stringify v₁ = some (some j)) (hj₂ : stringify v₂ = some (some j))
    (hd : De [] t j) (hne : tidy v₁ ≠ tidy v₂) : ¬ C71_statement := by
  intro h
  obtain ⟨s, hs⟩ := he
  have hw : WellStyled [] := by simp [WellStyled]
  have hg : GoodNames [] := by simp [GoodNames]
  have hr := (eval_agree hg hw n .schema t s (Or.inl rfl) hs).read
  rw [hn] at hr
  exact hne (h [] exEnv0 ⟨by simp, by simp⟩ hg hw (by intro i d hd; simp at hd) t s z v₁ v₂ j ht ⟨n, hs⟩ hr h₁ h₂ hj₁ hj₂ hd)

/-- It is false: `new Map([["a", 1]])` and `new Map()` are accepted for `HashMap<String, u8>`, and both arrive as the
empty map. -/
theorem C71_violated : ¬ C71_statement := by
  refine C71_refute (.hashMap (.prim .string) (.prim .u8)) 5 _ (.map [(.str (lit "a"), .num (.fin (1 : Int)))]) (.map [])
    (.obj []) (.hashMap (.prim _) (.prim _)) rfl ⟨_, rfl⟩ ⟨_, 2, rfl⟩ ⟨_, 2, rfl⟩ rfl rfl
    (.hashMap _ _ _ (Or.inl rfl) (by simp)) ?_
  intro h
  simp [tidy] at h

/-- It is false: `Infinity` and `-Infinity` are accepted for `Option<f64>`, and both arrive as `None`. -/
theorem C71_violated_infinity : ¬ C71_statement := by
  refine C71_refute (.option (.prim .f64)) 5 _ (.num .posInf) (.num .negInf) .null (.option (.prim _)) rfl ⟨_, rfl⟩
    ⟨_, 2, rfl⟩ ⟨_, 2, rfl⟩ rfl rfl (.none _) ?_
  intro h
  simp [tidy] at h

/-- Every argument of a map type with text keys, whatever is in it, arrives as the empty map: validation accepts it, it is sent
as `{}`, and serde accepts that as a map without entries. -/
theorem C71_map (P : Program) (E : ZEnv) (hg : GoodNames P) (hw : WellStyled P) (m : Method)
    (hm : m = .schema ∨ m = .inlineSchema) (p : Prim) (hp : p = .string ∨ p = .smolStr) (t u : Ty)
    (hu : u = .hashMap (.prim p) t ∨ u = .btreeMap (.prim p) t) (s : Str) (h : Returns P m u s) (z : ZSchema)
    (hz : readSchema s = some z) (v : JsVal) (hv : Accepts E z v) :
    stringify v = some (some (.obj [])) ∧ De P u (.obj []) := by
  constructor
  · obtain ⟨n, hn⟩ := h
    have hr := (eval_agree hg hw n m u s hm hn).read
    rw [hz] at hr
    have key : ∀ n, zOf P n .schema (.hashMap (.prim p) t) = some z → stringify v = some (some (.obj [])) := by
      intro n hz
      match n, hz with
      | n + 1, hz =>
        simp only [zOf, zBody, Option.bind_eq_some_iff, Option.some.injEq] at hz
        obtain ⟨a, _, b, _, rfl⟩ := hz
        obtain ⟨r, k, hk⟩ := hv
        match k, hk with
        | k + 1, hk =>
          obtain ⟨kvs, _, hv', _⟩ := parse_map hk
          rw [hv']
          rfl
    have key' : ∀ n, zOf P n .schema u = some z → stringify v = some (some (.obj [])) := by
      intro n hz
      rcases hu with rfl | rfl
      · exact key n hz
      · match n, hz with
        | n + 1, hz => exact key n hz
    rcases hm with rfl | rfl
    · exact key' n hr.symm
    · match n, hr with
      | n + 1, hr =>
        rw [zOf_inline (by rcases hu with rfl | rfl <;> simp)] at hr
        exact key' n hr.symm
  · rcases hu with rfl | rfl
    · exact .hashMap _ _ _ hp (by simp)
    · exact .btreeMap _ _ _ hp (by simp)

/-- The map of a user's scores is accepted and sent as `{}`. -/
example : ∃ s z, Returns [] .inlineSchema (.btreeMap (.prim .string) (.prim .u32)) s ∧ readSchema s = some z ∧
    Accepts exEnv0 z (.map [(.str (lit "a"), .num (.fin (7 : Int))), (.str (lit "b"), .num (.fin (9 : Int)))]) := by
  have hw : WellStyled [] := by simp [WellStyled]
  have hg : GoodNames [] := by simp [GoodNames]
  obtain ⟨s, hs⟩ : ∃ s, eval [] 6 .inlineSchema (.btreeMap (.prim .string) (.prim .u32)) = some s := ⟨_, rfl⟩
  have hr := (eval_agree hg hw 6 .inlineSchema _ s (Or.inr rfl) hs).read
  exact ⟨s, _, ⟨6, hs⟩, hr, _, 3, rfl⟩

/-- **C71.** For values without maps, sets, infinities and `NaN`: if they are sent as the same document they are the
same, up to `undefined`, which is left out of objects and is `null` in arrays. -/
theorem C71_partial (v₁ v₂ : JsVal) (h₁ : sendable v₁ = true) (h₂ : sendable v₂ = true) (j : Json)
    (hj₁ : stringify v₁ = some (some j)) (hj₂ : stringify v₂ = some (some j)) : tidy v₁ = tidy v₂ := by
  rw [tidy_exactly v₁ j h₁ hj₁, tidy_exactly v₂ j h₂ hj₂]

/-- In programs without maps, sets and floating point numbers this holds for whatever validation returns, in particular for
all values that validation returns as they are. -/
theorem C71_discrete_partial (P : Program) (E : ZEnv) (hg : GoodNames P) (hw : WellStyled P) (hE : IsModule P E)
    (hP : DiscreteProgram P) (m : Method) (hm : m = .schema ∨ m = .inlineSchema) (t : Ty) (ht : Discrete t) (s : Str)
    (h : Returns P m t s) (z : ZSchema) (hz : readSchema s = some z) (v₁ v₂ r₁ r₂ : JsVal) (h₁ : ParsesTo E z v₁ r₁)
    (h₂ : ParsesTo E z v₂ r₂) (j : Json) (hj₁ : stringify r₁ = some (some j)) (hj₂ : stringify r₂ = some (some j)) :
    tidy r₁ = tidy r₂ := by
  obtain ⟨n, hn⟩ := h
  have hr := (eval_agree hg hw n m t s hm hn).read
  rw [hz] at hr
  have hc := clean_zOf hP n m t z ht hr.symm
  obtain ⟨k₁, h₁⟩ := h₁
  obtain ⟨k₂, h₂⟩ := h₂
  have hE := envOk_of_module hg hw hE
  exact C71_partial r₁ r₂ (clean_parse hE hP k₁ z v₁ r₁ hc h₁) (clean_parse hE hP k₂ z v₂ r₂ hc h₂) j hj₁ hj₂

/-- The example program has no maps, sets and floating point numbers. -/
theorem exZod_discrete : DiscreteProgram exZod := by
  intro d hd t ht
  simp only [exZod, List.mem_cons, List.not_mem_nil, or_false] at hd
  have sp : ∀ p, p ≠ .f32 → p ≠ .f64 → p ≠ .notNanF32 → p ≠ .notNanF64 → Discrete (.prim p) := .prim
  have st : Discrete (.vec (.tuple [.prim .i32, .prim .i32])) :=
    .vec _ (.tuple _ (by intro t ht; simp at ht; subst ht; exact sp _ (by simp) (by simp) (by simp) (by simp)))
  rcases hd with e | e | e | e | e | e <;> subst e <;>
    simp [declTypes, fieldTypes, exStruct, exTuple, exEnum, exVariant, exPos, exField, From.ty?] at ht
  all_goals
    (repeat' (rcases ht with ht | ht))
  all_goals try subst ht
  all_goals
    first
      | exact st
      | (exact sp _ (by simp) (by simp) (by simp) (by simp); done)
      | exact .named _
      | exact .vec _ (.named _)
      | (exact .option _ (sp _ (by simp) (by simp) (by simp) (by simp)); done)

/-- Two users with different friends are sent as different documents. -/
example : ∃ s z, Returns exZod .schema (.named 0) s ∧ readSchema s = some z ∧
    ParsesTo (moduleEnv exZod 6) z
      (.obj [(lit "id", .num (.fin (7 : Int))), (lit "name", .str (lit "a")), (lit "friends", .arr []),
        (lit "shape", .str (lit "Empty"))])
      (.obj [(lit "id", .num (.fin (7 : Int))), (lit "name", .str (lit "a")), (lit "friends", .arr []),
        (lit "shape", .str (lit "Empty"))]) ∧
    ∀ v j, ParsesTo (moduleEnv exZod 6) z v v → stringify v = some (some j) →
      stringify (.obj [(lit "id", .num (.fin (7 : Int))), (lit "name", .str (lit "a")), (lit "friends", .arr []),
        (lit "shape", .str (lit "Empty"))]) = some (some j) →
      tidy v = .obj [(lit "id", .num (.fin (7 : Int))), (lit "name", .str (lit "a")), (lit "friends", .arr []),
        (lit "shape", .str (lit "Empty"))] := by
  obtain ⟨s, hs⟩ := exZod_returns 0 _ rfl
  have hr := (eval_agree exZod_good exZod_styled 6 .schema (.named 0) s (Or.inl rfl) hs).read
  obtain ⟨z, hz⟩ : ∃ z, zOf exZod 6 .schema (.named 0) = some z := ⟨_, rfl⟩
  have hp : ParsesTo (moduleEnv exZod 6) z
      (.obj [(lit "id", .num (.fin (7 : Int))), (lit "name", .str (lit "a")), (lit "friends", .arr []),
        (lit "shape", .str (lit "Empty"))])
      (.obj [(lit "id", .num (.fin (7 : Int))), (lit "name", .str (lit "a")), (lit "friends", .arr []),
        (lit "shape", .str (lit "Empty"))]) := by
    injection hz with hz
    subst hz
    exact ⟨12, rfl⟩
  rw [hz] at hr
  refine ⟨s, z, ⟨6, hs⟩, hr, hp, fun v j hv hj hj' => ?_⟩
  exact C71_discrete_partial exZod _ exZod_good exZod_styled exZod_module exZod_discrete .schema (Or.inl rfl) _ (.named 0) s
    ⟨6, hs⟩ z hr v _ v _ hv hp j hj hj'

/-- `{a: undefined}` and `{}` are the same value here, `{a: null}` is another. -/
example : tidy (.obj [(lit "a", .undefined)]) = tidy (.obj []) ∧
    tidy (.obj [(lit "a", .null)]) ≠ tidy (.obj []) := ⟨rfl, by simp [tidy, tidy.tidyObj, absent]⟩

end Verif.Props
