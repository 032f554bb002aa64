import Verif.Zod.Module
import Verif.Props.Valid

/-!
# C04: what the schema accepts, serde accepts
-/

namespace Verif.Props
open Verif Verif.Schema Verif.SchemaSpec Verif.Js Verif.Zod Verif.Spec

/-! ## The environment of the example program -/

theorem exZod_distinct : DistinctDecls exZod := by unfold DistinctDecls; decide +kernel

theorem exZod_returns : ∀ i d, exZod[i]? = some d → ∃ s, eval exZod 6 .schema (.named i) = some s := by
  intro i d h
  match i, h with
  | 0, _ => exact ⟨_, rfl⟩
  | 1, _ => exact ⟨_, rfl⟩
  | 2, _ => exact ⟨_, rfl⟩
  | 3, _ => exact ⟨_, rfl⟩
  | 4, _ => exact ⟨_, rfl⟩
  | 5, _ => exact ⟨_, rfl⟩
  | n + 6, h => simp [exZod] at h

/-- The module of the example program. -/
theorem exZod_module : IsModule exZod (moduleEnv exZod 6) :=
  moduleEnv_isModule exZod_good exZod_styled exZod_distinct exZod_returns

theorem exZod_sound (wide : Bool) : ∀ d ∈ exZod, SoundDecl wide exZod d := by
  intro d hd
  simp only [exZod, List.mem_cons, List.not_mem_nil, or_false] at hd
  have np : ∀ p, NeverUndef exZod (.prim p) := .prim
  have sp : ∀ p, soundPrim wide p = true → Sound wide exZod (.prim p) := .prim
  have s1 := sp .u8 rfl
  have s2 := sp .u16 rfl
  have s3 := sp .u32 rfl
  have s4 := sp .i32 rfl
  have s5 := sp .string rfl
  have nv : ∀ t, NeverUndef exZod (.vec t) := .vec
  have sn : ∀ i, Sound wide exZod (.named i) := .named
  have n1 : NeverUndef exZod (.named 1) :=
    .enum 1 _ rfl rfl (fun h => by cases h) (fun h => by cases h)
  have n4 : NeverUndef exZod (.named 4) :=
    .struct 4 (exTuple "Pair" [exPos (.prim .u8), exPos (.prim .string)]) rfl rfl
      (fun _ f hk => by have : (2 : Nat) = 1 := congrArg List.length hk; omega)
      (fun _ f hk => by have : (2 : Nat) = 1 := congrArg List.length hk; omega)
  have sv : Sound wide exZod (.vec (.named 0)) := .vec _ (sn 0)
  have st : Sound wide exZod (.vec (.tuple [.prim .i32, .prim .i32])) :=
    .vec _ (.tuple _ (by intro t ht; simp at ht; subst ht; exact sp _ rfl))
  rcases hd with e | e | e | e | e | e <;> subst e <;>
    simp [SoundDecl, SoundFields, SoundVariant, deStyle, exStruct, exTuple, exEnum, exVariant, exPos, exField, keptFields,
      DistinctVariants, s1, s2, s3, s4, s5, np, nv, sn, n1, n4, sv, st]
  all_goals decide +kernel

/-! ## C04 -/

/-- The full property: whatever value the schema of a type accepts, printing the parsed value as JSON gives a
document that serde accepts for this type. -/
def C04_statement : Prop :=
  ∀ (P : Program) (E : ZEnv), Valid P → GoodNames P → WellStyled P → IsModule P E → ∀ (t : Ty) (s : Str)
    (z : ZSchema) (v r : JsVal), InScope P t → Returns P .schema t s → readSchema s = some z →
    ParsesTo E z v r → ∃ j, stringify r = some (some j) ∧ De P t j

def exEnv0 : ZEnv := moduleEnv [] 0

theorem C04_refute (t : Ty) (n : Nat) (z : ZSchema) (v r : JsVal) (j : Json) (ht : InScope [] t)
    (hn : zOf [] n .schema t = some z) (he : ∃ s, eval [] n .schema t = some s)
    (hp : ParsesTo exEnv0 z v r) (hj : stringify r = some (some j)) (hd : ¬ De [] t j) : ¬ C04_statement := by
  intro h
  obtain ⟨s, hs⟩ := he
  have hw : WellStyled [] := by simp [WellStyled]
  have hg : GoodNames [] := by simp [GoodNames]
  have hr := (eval_agree hg hw n .schema t s (Or.inl rfl) hs).read
  rw [hn] at hr
  obtain ⟨j', hj', hde⟩ := h [] exEnv0 ⟨by simp, by simp⟩ hg hw (by intro i d hd; simp at hd) t s z v r
    ht ⟨n, hs⟩ hr hp
  rw [hj] at hj'
  injection hj' with hj'
  injection hj' with hj'
  subst hj'
  exact hd hde

/-- It is false: the schema of `u64` accepts 2^64. -/
theorem C04_violated : ¬ C04_statement := by
  refine C04_refute (.prim .u64) 1 _ (.num (.fin (2 ^ 64 : Int))) _ (.num (.int (2 ^ 64))) (.prim _) rfl ⟨_, rfl⟩
    ⟨1, rfl⟩ rfl ?_
  intro h
  cases h with
  | int _ lo hi i hr => cases hr
  | wide _ lo hi i _ hr h1 h2 =>
    simp only [wideRange, Option.some.injEq, Prod.mk.injEq] at hr
    obtain ⟨_, rfl⟩ := hr
    omega
  | float _ _ hp => simp at hp

/-- It is false: the schema of `f64` accepts `Infinity`, which is printed as `null`. -/
theorem C04_violated_infinity : ¬ C04_statement := by
  refine C04_refute (.prim .f64) 1 _ (.num .posInf) _ .null (.prim _) rfl ⟨_, rfl⟩ ⟨1, rfl⟩ rfl ?_
  intro h
  cases h

/-- It is false: the schema of `[u8; 2]` accepts arrays of any length. -/
theorem C04_violated_array : ¬ C04_statement := by
  refine C04_refute (.array 2 (.prim .u8)) 5 _ (.arr [])  _ (.arr []) (.array 2 (.prim _)) rfl ⟨_, rfl⟩
    ⟨2, rfl⟩ rfl ?_
  intro h
  cases h with
  | array _ _ _ hl => simp at hl

/-- It is false: a `Set`, which the schema of `HashSet<u8>` asks for, is printed as an empty object. -/
theorem C04_violated_set : ¬ C04_statement := by
  refine C04_refute (.hashSet (.prim .u8)) 5 _ (.set [])  _ (.obj []) (.hashSet (.prim _)) rfl ⟨_, rfl⟩
    ⟨2, rfl⟩ rfl ?_
  intro h
  cases h

/-- It is false: the schema of `PhantomData<u8>` is that of `u8`, while serde expects `null`. -/
theorem C04_violated_phantom : ¬ C04_statement := by
  refine C04_refute (.wrap .phantomData (.prim .u8)) 5 _ (.num (.fin (1 : Int)))  _ (.num (.int 1))
    (.wrap _ (.prim _)) rfl ⟨_, rfl⟩ ⟨2, rfl⟩ rfl ?_
  intro h
  cases h with
  | wrap _ _ _ hw => exact hw rfl

/-- **C04.** For types made of strings, characters, floating point numbers, integers of up to 32 bits (`wide`:
64 bits), `()`, boxes and the like, `Option`, `Vec`, tuples, `Result`, and derived structs and enums (with the
exceptions listed in `SoundDecl`): if the schema accepts a value, and the parsed value contains no infinite number,
no lone surrogate (`wide`: and no number beyond `±2^53`), printing it as JSON gives a document that serde accepts
for this type. A parsed value that is
`undefined` (an `Option` left out) is accepted as `null`, which is how it is printed in an argument list. -/
theorem C04_partial (wide : Bool) (P : Program) (E : ZEnv) (hg : GoodNames P) (hw : WellStyled P)
    (hpl : ∀ d ∈ P, Plain d) (hs : ∀ d ∈ P, SoundDecl wide P d) (hE : IsModule P E) (m : Method) (hm : m = .schema ∨ m = .inlineSchema)
    (t : Ty) (ht : Sound wide P t) (s : Str) (h : Returns P m t s) (z : ZSchema) (hz : readSchema s = some z)
    (v r : JsVal) (hp : ParsesTo E z v r) (hpr : plainJs wide r = true) :
    (r = .undefined ∧ De P t .null) ∨ ∃ j, stringify r = some (some j) ∧ De P t j := by
  obtain ⟨n, hn⟩ := h
  obtain ⟨k, hk⟩ := hp
  have hr := (eval_agree hg hw n m t s hm hn).read
  rw [hz] at hr
  exact sound (envOk_of_module hg hw hE) hw hpl hs k n m t z v r ht hr.symm hk hpr

/-- Types that exclude `undefined`: the document is always there. -/
theorem C04_defined_partial (wide : Bool) (P : Program) (E : ZEnv) (hg : GoodNames P) (hw : WellStyled P)
    (hpl : ∀ d ∈ P, Plain d) (hs : ∀ d ∈ P, SoundDecl wide P d) (hE : IsModule P E) (m : Method)
    (hm : m = .schema ∨ m = .inlineSchema) (t : Ty) (ht : Sound wide P t) (hn : NeverUndef P t) (s : Str)
    (h : Returns P m t s) (z : ZSchema) (hz : readSchema s = some z) (v r : JsVal) (hp : ParsesTo E z v r)
    (hpr : plainJs wide r = true) : ∃ j, stringify r = some (some j) ∧ De P t j := by
  rcases C04_partial wide P E hg hw hpl hs hE m hm t ht s h z hz v r hp hpr with ⟨rfl, _⟩ | h'
  · exfalso
    obtain ⟨n, hn'⟩ := h
    obtain ⟨k, hk⟩ := hp
    have hr := (eval_agree hg hw n m t s hm hn').read
    rw [hz] at hr
    have := parse_undefined _ _ _ hk
    subst this
    exact never_undef (envOk_of_module hg hw hE) hw hpl hn k n m z _ hr.symm hk
  · exact h'

/-- A value with a nested user and an enum is accepted, and the theorem says that what is sent is accepted. -/
example : ∃ s z r j, Returns exZod .schema (.named 0) s ∧ readSchema s = some z ∧
    ParsesTo (moduleEnv exZod 6) z
      (.obj [(lit "id", .num (.fin (7 : Int))), (lit "name", .str (lit "a")), (lit "extra", .undefined),
        (lit "friends", .arr [.obj [(lit "id", .num (.fin (8 : Int))), (lit "name", .str []),
          (lit "friends", .arr []), (lit "shape", .obj [(lit "Circle", .num (.fin (3 : Int)))])]]),
        (lit "shape", .str (lit "Empty"))]) r ∧
    stringify r = some (some j) ∧ De exZod (.named 0) j := by
  obtain ⟨s, hs⟩ := exZod_returns 0 _ rfl
  have hr := (eval_agree exZod_good exZod_styled 6 .schema (.named 0) s (Or.inl rfl) hs).read
  obtain ⟨z, hz⟩ : ∃ z, zOf exZod 6 .schema (.named 0) = some z := ⟨_, rfl⟩
  obtain ⟨r, hp⟩ : ∃ r, parse (moduleEnv exZod 6) 12 z
      (.obj [(lit "id", .num (.fin (7 : Int))), (lit "name", .str (lit "a")), (lit "extra", .undefined),
        (lit "friends", .arr [.obj [(lit "id", .num (.fin (8 : Int))), (lit "name", .str []),
          (lit "friends", .arr []), (lit "shape", .obj [(lit "Circle", .num (.fin (3 : Int)))])]]),
        (lit "shape", .str (lit "Empty"))]) = some (some r) ∧ plainJs true r = true := by
    injection hz with hz
    subst hz
    exact ⟨_, rfl, rfl⟩
  rw [hz] at hr
  obtain ⟨j, hj, hd⟩ := C04_defined_partial true exZod _ exZod_good exZod_styled exZod_plain (exZod_sound _) exZod_module
    .schema (Or.inl rfl) (.named 0) (.named 0)
    (.struct 0 _ rfl rfl (by simp [exStruct]) (by simp [exStruct])) s ⟨6, hs⟩ z hr _ r ⟨12, hp.1⟩ hp.2
  exact ⟨s, z, r, j, ⟨6, hs⟩, hr, ⟨12, hp.1⟩, hj, hd⟩

/-- 64 bit integers: `Vec<(u64, i64, usize, isize)>`. -/
example : ∃ s z r j, Returns [] .schema
      (.vec (.tuple [.prim .u64, .prim .i64, .prim .usize, .prim .isize])) s ∧ readSchema s = some z ∧
    ParsesTo exEnv0 z (.arr [.arr [.num (.fin (2 ^ 53 : Int)), .num (.fin (-5 : Int)), .num (.fin (0 : Int)),
      .num (.fin (-2 ^ 53 : Int))]]) r ∧
    stringify r = some (some j) ∧ De [] (.vec (.tuple [.prim .u64, .prim .i64, .prim .usize, .prim .isize])) j := by
  have hw : WellStyled [] := by simp [WellStyled]
  have hg : GoodNames [] := by simp [GoodNames]
  obtain ⟨s, hs⟩ : ∃ s, eval [] 5 .schema (.vec (.tuple [.prim .u64, .prim .i64, .prim .usize, .prim .isize]))
    = some s := ⟨_, rfl⟩
  obtain ⟨z, hz⟩ : ∃ z, zOf [] 5 .schema (.vec (.tuple [.prim .u64, .prim .i64, .prim .usize, .prim .isize]))
    = some z := ⟨_, rfl⟩
  have hr := (eval_agree hg hw 5 .schema _ s (Or.inl rfl) hs).read
  obtain ⟨r, hp⟩ : ∃ r, parse exEnv0 5 z (.arr [.arr [.num (.fin (2 ^ 53 : Int)), .num (.fin (-5 : Int)),
      .num (.fin (0 : Int)), .num (.fin (-2 ^ 53 : Int))]]) = some (some r) ∧ plainJs true r = true := by
    injection hz with hz
    subst hz
    exact ⟨_, rfl, by decide +kernel⟩
  rw [hz] at hr
  have sp : ∀ p, soundPrim true p = true → Sound true [] (.prim p) := .prim
  obtain ⟨j, hj, hd⟩ := C04_defined_partial true [] exEnv0 hg hw (by simp) (by simp) (by intro i d hd; simp at hd)
    .schema (Or.inl rfl) _ (.vec _ (.tuple _ (by
      intro t ht
      simp only [List.mem_cons, List.not_mem_nil, or_false] at ht
      rcases ht with rfl | rfl | rfl | rfl <;> exact sp _ rfl))) (.vec _) s ⟨5, hs⟩ z hr _ r ⟨5, hp.1⟩ hp.2
  exact ⟨s, z, r, j, ⟨5, hs⟩, hr, ⟨5, hp.1⟩, hj, hd⟩

end Verif.Props
