import Verif.Zod.Complete
import Verif.Props.Sound
import Verif.Zod.Loops

/-!
# C05: what serde writes, the schema accepts; C50: validation terminates
-/

namespace Verif.Props
open Verif Verif.Schema Verif.SchemaSpec Verif.Js Verif.Zod Verif.Spec

theorem envTotal_of_module {P : Program} {E : ZEnv} (hg : GoodNames P) (hw : WellStyled P)
    (hpl : ∀ d ∈ P, Plain d) (hnt : ∀ d ∈ P, NoThrow d) (hE : IsModule P E) : EnvTotal P E := by
  intro i d hd
  obtain ⟨s, ⟨n, hn⟩, he⟩ := hE i d hd
  obtain ⟨z, hz⟩ := zOf_total hw hpl hnt n .schema (.named i) s (Or.inl rfl) rfl hn
  exact ⟨z, by rw [he, (eval_agree hg hw n .schema (.named i) s (Or.inl rfl) hn).read, hz]⟩

/-! ## C50 -/

/-- The full property: validating a value ends. -/
def C50_statement : Prop :=
  ∀ (P : Program) (E : ZEnv), Valid P → GoodNames P → WellStyled P → (∀ d ∈ P, Plain d) → IsModule P E →
    ∀ (t : Ty) (s : Str) (z : ZSchema) (v : JsVal), Returns P .schema t s → readSchema s = some z →
      ∃ n x, parse E n z v = some x

/-- `#[serde(untagged)] enum U { X(B), Y(u8) }`, `struct B(Box<U>)`. -/
def exLoop : Program :=
  [ .enum (exEnum "U" .untagged [exVariant "X" .tuple [exPos (.named 1)], exVariant "Y" .tuple [exPos (.prim .u8)]]),
    .struct (exTuple "B" [exPos (.wrap .box (.named 0))]) ]

theorem exLoop_good : GoodNames exLoop := by
  intro d hd
  simp only [exLoop, List.mem_cons, List.not_mem_nil, or_false] at hd
  rcases hd with e | e <;> subst e <;> decide +kernel

theorem exLoop_styled : WellStyled exLoop := by
  intro d hd
  simp only [exLoop, List.mem_cons, List.not_mem_nil, or_false] at hd
  rcases hd with e | e <;> subst e <;> decide +kernel

theorem exLoop_plain : ∀ d ∈ exLoop, Plain d := by
  intro d hd
  simp only [exLoop, List.mem_cons, List.not_mem_nil, or_false] at hd
  rcases hd with e | e <;> subst e <;> simp [Plain, exTuple, exStruct, exEnum, exVariant, exPos, exField]

theorem exLoop_returns : ∀ i d, exLoop[i]? = some d → ∃ s, eval exLoop 8 .schema (.named i) = some s := by
  intro i d h
  match i, h with
  | 0, _ => exact ⟨_, rfl⟩
  | 1, _ => exact ⟨_, rfl⟩
  | n + 2, h => simp [exLoop] at h

/-- The schema of `B` is a union whose first alternative is the schema of `B`. -/
theorem exLoop_never : ∀ n, parse (moduleEnv exLoop 8) n (.lazy (lit "Ns") (lit "B")) (.num (.fin (1 : Int))) = none ∧
    parse (moduleEnv exLoop 8) n (.union [.lazy (lit "Ns") (lit "B"), .number [.finite, .int, .gte 0, .lte 255]])
      (.num (.fin (1 : Int))) = none := by
  intro n
  induction n with
  | zero => exact ⟨rfl, rfl⟩
  | succ n ih =>
    constructor
    · rw [parse]
      have : (moduleEnv exLoop 8).const (lit "Ns") (lit "B") =
        some (.union [.lazy (lit "Ns") (lit "B"), .number [.finite, .int, .gte 0, .lte 255]]) := rfl
      rw [this]
      exact ih.2
    · rw [parse, List.map_cons, ih.1]
      rfl

theorem exLoop_valid : Valid exLoop := by
  refine ⟨?_, ?_⟩
  · intro d hd
    simp only [exLoop, List.mem_cons, List.not_mem_nil, or_false] at hd
    rcases hd with e | e <;> subst e <;> exact ⟨_, rfl⟩
  · intro d hd t ht
    simp only [exLoop, List.mem_cons, List.not_mem_nil, or_false] at hd
    rcases hd with e | e <;> subst e <;>
      simp [declTypes, fieldTypes, exTuple, exStruct, exEnum, exVariant, exPos, exField, From.ty?] at ht
    · rcases ht with rfl | rfl
      · exact .named (by decide)
      · exact .prim _
    · subst ht
      exact .wrap _ (.named (by decide))

/-- It is false: an untagged enum that contains itself through a newtype struct has a schema that calls itself
for the same value, for instance for the number 1, which is a valid `U`. -/
theorem C50_violated : ¬ C50_statement := by
  intro h
  obtain ⟨s, hs⟩ := exLoop_returns 0 _ rfl
  have hd : DistinctDecls exLoop := by unfold DistinctDecls; decide +kernel
  have hm := moduleEnv_isModule exLoop_good exLoop_styled hd exLoop_returns
  have hr := (eval_agree exLoop_good exLoop_styled 8 .schema (.named 0) s (Or.inl rfl) hs).read
  have hz : zOf exLoop 8 .schema (.named 0) =
    some (.union [.lazy (lit "Ns") (lit "B"), .number [.finite, .int, .gte 0, .lte 255]]) := rfl
  rw [hz] at hr
  obtain ⟨n, x, hx⟩ := h exLoop (moduleEnv exLoop 8) exLoop_valid exLoop_good exLoop_styled exLoop_plain hm
    (.named 0) s _ (.num (.fin (1 : Int))) ⟨8, hs⟩ hr
  rw [(exLoop_never n).2] at hx
  cases hx

/-- **C50.** If no type is made of itself through nothing but boxes, newtypes, options, conversions and
untagged alternatives, validating any value against the schema of any type ends. -/
theorem C50_partial (P : Program) (E : ZEnv) (hn : GoodNames P) (hw : WellStyled P) (hpl : ∀ d ∈ P, Plain d)
    (hg : Guarded P) (hE : IsModule P E) (m : Method) (hm : m = .schema ∨ m = .inlineSchema) (t : Ty) (s : Str)
    (h : Returns P m t s) (z : ZSchema) (hz : readSchema s = some z) (v : JsVal) :
    ∃ n x, parse E n z v = some x := by
  obtain ⟨n, hn'⟩ := h
  have hr := (eval_agree hn hw n m t s hm hn').read
  rw [hz] at hr
  exact ends (envOk_of_module hn hw hE) hw hpl hg v t n m z hr.symm

/-- **C50, exactly.** If the module loads, validation ends for all types and values if and only if no type is made of itself
through nothing but boxes, newtypes, options, conversions and untagged enums. -/
theorem C50_exact (P : Program) (E : ZEnv) (hn : GoodNames P) (hw : WellStyled P) (hpl : ∀ d ∈ P, Plain d) (hE : IsModule P E)
    (hl : Loads P E) :
    (∀ (m : Method) (t : Ty) (s : Str) (z : ZSchema) (v : JsVal), m = .schema ∨ m = .inlineSchema → Returns P m t s →
      readSchema s = some z → ∃ n x, parse E n z v = some x) ↔ Guarded P := by
  constructor
  · rintro h i ⟨c, h0, hc⟩
    obtain ⟨d, hd⟩ : ∃ d, P[i]? = some d := by
      have := hc 0
      rw [h0] at this
      generalize c (0 + 1) = u at this
      cases this with
      | from_ _ d _ hd => exact ⟨d, hd⟩
      | struct _ s _ hd => exact ⟨_, hd⟩
      | untagged _ e _ _ hd => exact ⟨_, hd⟩
    obtain ⟨s, ⟨n, hs⟩, he⟩ := hE i d hd
    cases hz : readSchema s with
    | none => exact hl d (List.mem_of_getElem? hd) (he.trans hz)
    | some z =>
      obtain ⟨k, x, hx⟩ := h .schema (.named i) s z (.num .nan) (Or.inl rfl) ⟨n, hs⟩ hz
      have hr := (eval_agree hn hw n .schema (.named i) s (Or.inl rfl) hs).read
      rw [hz] at hr
      rw [loops (envOk_of_module hn hw hE) hpl hl hc k n 0 .schema z (by rw [h0]; exact hr.symm)] at hx
      cases hx
  · intro hG m t s z v hm h hz
    exact C50_partial P E hn hw hpl hG hE m hm t s h z hz v

/-- Both sides are false of the example of `C50_violated`, whose module loads. -/
example : Loads exLoop (moduleEnv exLoop 8) ∧ ¬ Guarded exLoop := by
  have hd : DistinctDecls exLoop := by unfold DistinctDecls; decide +kernel
  have hm := moduleEnv_isModule exLoop_good exLoop_styled hd exLoop_returns
  have hl : Loads exLoop (moduleEnv exLoop 8) := by
    intro d hd
    simp only [exLoop, List.mem_cons, List.not_mem_nil, or_false] at hd
    rcases hd with rfl | rfl
    · rw [show (moduleEnv exLoop 8).const _ _ = some (.union [.lazy (lit "Ns") (lit "B"), .number [.finite, .int, .gte 0, .lte 255]]) from rfl]
      simp
    · rw [show (moduleEnv exLoop 8).const _ _ = some (.union [.lazy (lit "Ns") (lit "B"), .number [.finite, .int, .gte 0, .lte 255]]) from rfl]
      simp
  refine ⟨hl, fun hG => ?_⟩
  have h := (C50_exact exLoop _ exLoop_good exLoop_styled exLoop_plain hm hl).2 hG
  obtain ⟨s, hs⟩ := exLoop_returns 0 _ rfl
  have hr := (eval_agree exLoop_good exLoop_styled 8 .schema (.named 0) s (Or.inl rfl) hs).read
  have hz : zOf exLoop 8 .schema (.named 0) =
    some (.union [.lazy (lit "Ns") (lit "B"), .number [.finite, .int, .gte 0, .lte 255]]) := rfl
  rw [hz] at hr
  obtain ⟨n, x, hx⟩ := h .schema (.named 0) s _ (.num (.fin (1 : Int))) (Or.inl rfl) ⟨8, hs⟩ hr
  rw [(exLoop_never n).2] at hx
  cases hx

/-- The example program is guarded, although `User` is recursive. -/
theorem exZod_guarded : Guarded exZod := by
  intro i
  rw [← acc_iff_not_endless]
  refine ⟨_, fun u hu => ?_⟩
  -- the only step from a declaration is that of `Id` to `u32`
  have : u = .prim .u32 := by
    cases hu with
    | from_ _ d t hd ht =>
      exfalso
      match i, hd with
      | 0, hd => cases hd; cases ht
      | 1, hd => cases hd; cases ht
      | 2, hd => cases hd; cases ht
      | 3, hd => cases hd; cases ht
      | 4, hd => cases hd; cases ht
      | 5, hd => cases hd; cases ht
      | n + 6, hd => simp [exZod] at hd
    | struct _ s f hd _ ht hk =>
      match i, hd with
      | 0, hd => cases hd; rcases ht with ht | ht <;> cases ht
      | 1, hd => cases hd
      | 2, hd => cases hd
      | 3, hd => cases hd
      | 4, hd =>
        cases hd
        have : (2 : Nat) = 1 := congrArg List.length hk
        omega
      | 5, hd =>
        cases hd
        have : f = exPos (.prim .u32) := by injection hk with h _; exact h.symm
        rw [this]
        rfl
      | n + 6, hd => simp [exZod] at hd
    | untagged _ e v f hd _ ht =>
      exfalso
      match i, hd with
      | 0, hd => cases hd
      | 1, hd => cases hd; cases ht
      | 2, hd => cases hd; cases ht
      | 3, hd => cases hd; cases ht
      | 4, hd => cases hd
      | 5, hd => cases hd
      | n + 6, hd => simp [exZod] at hd
  subst this
  exact ⟨_, fun u hu => by cases hu⟩

/-- The theorem applies to the recursive type `User`. -/
example (v : JsVal) : ∃ s z, Returns exZod .schema (.named 0) s ∧ readSchema s = some z ∧
    ∃ n x, parse (moduleEnv exZod 6) n z v = some x := by
  obtain ⟨s, hs⟩ := exZod_returns 0 _ rfl
  have hr := (eval_agree exZod_good exZod_styled 6 .schema (.named 0) s (Or.inl rfl) hs).read
  obtain ⟨z, hz⟩ : ∃ z, zOf exZod 6 .schema (.named 0) = some z := ⟨_, rfl⟩
  rw [hz] at hr
  exact ⟨s, z, ⟨6, hs⟩, hr, C50_partial exZod _ exZod_good exZod_styled exZod_plain exZod_guarded exZod_module
    .schema (Or.inl rfl) _ s ⟨6, hs⟩ z hr v⟩

/-! ## C05 -/

/-- The full property: whatever serde writes for a value of a type, the schema of the type accepts. -/
def C05_statement : Prop :=
  ∀ (P : Program) (E : ZEnv), Valid P → GoodNames P → WellStyled P → IsModule P E → ∀ (t : Ty) (s : Str)
    (z : ZSchema) (j : Json), InScope P t → Returns P .schema t s → readSchema s = some z →
    Ser P true t j → Accepts E z (fromJson j)

theorem C05_refute (t : Ty) (n : Nat) (z : ZSchema) (j : Json) (ht : InScope [] t)
    (hn : zOf [] n .schema t = some z) (he : ∃ s, eval [] n .schema t = some s) (hs : Ser [] true t j)
    (hp : ¬ Accepts exEnv0 z (fromJson j)) : ¬ C05_statement := by
  intro h
  obtain ⟨s, hs'⟩ := he
  have hw : WellStyled [] := by simp [WellStyled]
  have hg : GoodNames [] := by simp [GoodNames]
  have hr := (eval_agree hg hw n .schema t s (Or.inl rfl) hs').read
  rw [hn] at hr
  exact hp (h [] exEnv0 ⟨by simp, by simp⟩ hg hw (by intro i d hd; simp at hd) t s z j ht ⟨n, hs'⟩ hr hs)

/-- It is false: `None` is written as `null`, which `.optional()` does not accept. -/
theorem C05_violated : ¬ C05_statement := by
  refine C05_refute (.option (.prim .u8)) 5 _ .null (.option (.prim _)) rfl ⟨_, rfl⟩ (.none _) ?_
  rintro ⟨r, n, h⟩
  match n, h with
  | n + 2, h => cases h

/-- It is false: a `HashSet` is written as an array, while the schema asks for a `Set`. -/
theorem C05_violated_set : ¬ C05_statement := by
  refine C05_refute (.hashSet (.prim .u8)) 5 _ (.arr []) (.hashSet (.prim _)) rfl ⟨_, rfl⟩
    (.hashSet _ _ (by simp)) ?_
  rintro ⟨r, n, h⟩
  match n, h with
  | n + 2, h => cases h

/-- It is false: a floating point number that is not finite is written as `null`. -/
theorem C05_violated_nan : ¬ C05_statement := by
  refine C05_refute (.prim .f64) 5 _ .null (.prim _) rfl ⟨_, rfl⟩ (.nonFinite _ (Or.inr (Or.inl rfl)) rfl) ?_
  rintro ⟨r, n, h⟩
  match n, h with
  | n + 1, h => cases h

/-- It is false: a character outside of the basic multilingual plane has two UTF-16 code units. -/
theorem C05_violated_char : ¬ C05_statement := by
  refine C05_refute (.prim .char) 5 _ (.str [Char.ofNat 128512]) (.prim _) rfl ⟨_, rfl⟩ (.char _ (Or.inl rfl)) ?_
  rintro ⟨r, n, h⟩
  match n, h with
  | n + 1, h =>
    have : parse exEnv0 (n + 1) (.string [.length 1]) (fromJson (.str [Char.ofNat 128512])) = some none := rfl
    rw [this] at h
    cases h

/-- It is false: `PhantomData<T>` and a dangling `Weak<T>` are written as `null`. -/
theorem C05_violated_phantom : ¬ C05_statement := by
  refine C05_refute (.wrap .phantomData (.prim .u8)) 5 _ .null (.wrap _ (.prim _)) rfl ⟨_, rfl⟩ (.phantom _) ?_
  rintro ⟨r, n, h⟩
  match n, h with
  | n + 1, h => cases h

/-- **C05.** For types made of strings, characters of the basic multilingual plane, finite numbers, `()`, boxes
and the like, `Vec`, arrays, tuples, `Result`, and derived structs and enums (with the exceptions listed in
`CompleteDecl`: mainly, an `Option` stands directly in a named field and is left out when it is `None`): what
serde writes for a value, the schema accepts. -/
theorem C05_partial (P : Program) (E : ZEnv) (hn : GoodNames P) (hw : WellStyled P) (hpl : ∀ d ∈ P, Plain d)
    (hnt : ∀ d ∈ P, NoThrow d) (hg : Guarded P) (hc : ∀ d ∈ P, CompleteDecl d) (hE : IsModule P E) (m : Method)
    (hm : m = .schema ∨ m = .inlineSchema) (t : Ty) (ht : Complete t) (s : Str) (h : Returns P m t s)
    (z : ZSchema) (hz : readSchema s = some z) (j : Json) (hj : Ser P false t j) : Accepts E z (fromJson j) := by
  obtain ⟨n, hn'⟩ := h
  have hr := (eval_agree hn hw n m t s hm hn').read
  rw [hz] at hr
  exact complete (envOk_of_module hn hw hE) (envTotal_of_module hn hw hpl hnt hE) hw hpl hnt hg hc j t n m z ht hj
    hr.symm

theorem exZod_complete : ∀ d ∈ exZod, CompleteDecl d := by
  intro d hd
  simp only [exZod, List.mem_cons, List.not_mem_nil, or_false] at hd
  have sp : ∀ p, completePrim p = true → Complete (.prim p) := .prim
  have s1 := sp .u8 rfl
  have s2 := sp .u16 rfl
  have s3 := sp .u32 rfl
  have s4 := sp .i32 rfl
  have s5 := sp .string rfl
  have sn : ∀ i, Complete (.named i) := .named
  have sv : Complete (.vec (.named 0)) := .vec _ (sn 0)
  have st : Complete (.vec (.tuple [.prim .i32, .prim .i32])) :=
    .vec _ (.tuple _ (by intro t ht; simp at ht; subst ht; exact sp _ rfl))
  rcases hd with e | e | e | e | e | e <;> subst e <;>
    simp [CompleteDecl, CompleteFields, CompleteField, CompleteVariant, serStyle, exStruct, exTuple, exEnum, exVariant, exPos,
      exField, keptFields, serFields, From.ty?, s1, s2, s3, s4, s5, sn, sv, st]
  all_goals decide +kernel

/-- A user with a friend and enum values in both is written to a document, which the schema accepts. -/
example : ∃ s z, Returns exZod .schema (.named 0) s ∧ readSchema s = some z ∧
    Accepts (moduleEnv exZod 6) z (fromJson
      (.obj [(lit "id", .num (.int 7)), (lit "name", .str (lit "a")),
        (lit "friends", .arr [.obj [(lit "id", .num (.int 8)), (lit "name", .str []),
          (lit "friends", .arr []), (lit "shape", .obj [(lit "Circle", .num (.int 3))])]]),
        (lit "shape", .str (lit "Empty"))])) := by
  obtain ⟨s, hs⟩ := exZod_returns 0 _ rfl
  have hr := (eval_agree exZod_good exZod_styled 6 .schema (.named 0) s (Or.inl rfl) hs).read
  obtain ⟨z, hz⟩ : ∃ z, zOf exZod 6 .schema (.named 0) = some z := ⟨_, rfl⟩
  rw [hz] at hr
  refine ⟨s, z, ⟨6, hs⟩, hr, C05_partial exZod _ exZod_good exZod_styled exZod_plain exZod_noThrow exZod_guarded
    exZod_complete exZod_module .schema (Or.inl rfl) _ (.named 0) s ⟨6, hs⟩ z hr _ ?_⟩
  have user : ∀ i n fr sh, i ≤ 2 ^ 32 - 1 → 0 ≤ i → (∀ j ∈ fr, Ser exZod false (.named 0) j) →
      Ser exZod false (.named 1) sh → Ser exZod false (.named 0) (.obj [(lit "id", .num (.int i)), (lit "name", .str n),
        (lit "friends", .arr fr), (lit "shape", sh)]) := by
    intro i n fr sh h1 h2 h3 h4
    refine .struct 0 _ _ rfl rfl rfl (.named _ _ ?_)
    refine .field (exField "id" (.prim .u32)) _ _ _ rfl rfl rfl (.int _ 0 (2 ^ 32 - 1) i (Or.inl rfl) h2 h1) ?_
    refine .field (exField "name" (.prim .string)) _ _ _ rfl rfl rfl (.string n) ?_
    refine .field (exField "friends" (.vec (.named 0))) _ _ _ rfl rfl rfl (.vec _ _ h3) ?_
    exact .field (exField "shape" (.named 1)) _ _ _ rfl rfl rfl h4 .nil
  refine user 7 _ _ _ (by omega) (by omega) ?_
    (.externalUnit 1 _ (exVariant "Empty" .unit []) rfl rfl rfl (by simp [exEnum]) rfl rfl)
  intro j hj
  rw [List.mem_singleton] at hj
  subst hj
  exact user 8 _ _ _ (by omega) (by omega) (by simp)
    (.external 1 _ (exVariant "Circle" .tuple [exPos (.prim .u32)]) _ rfl rfl rfl (by simp [exEnum]) rfl
      (.newtype _ _ (.int _ 0 (2 ^ 32 - 1) 3 (Or.inl rfl) (by omega) (by omega))))

end Verif.Props
