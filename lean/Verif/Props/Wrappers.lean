import Verif.Spec.Wrappers
import Verif.Zod.Unwrap
import Verif.Schema.Bare
import Verif.Props.Agree

/-!
# C76: wrappers make no difference to what schemas accept
-/

namespace Verif.Props
open Verif Verif.Schema Verif.SchemaSpec Verif.Js Verif.Spec Verif.Zod

theorem goodNames_without {P : Program} (h : GoodNames P) : GoodNames (withoutWrappers P) := by
  intro d hd
  obtain ⟨d, hm, rfl⟩ := List.mem_map.1 hd
  have := h d hm
  cases d with
  | struct s =>
    simp only [goodDecl, Decl.mapTy, List.all_map] at this ⊢
    exact this
  | enum e =>
    have hv : ∀ v : Variant, goodVariant e.tag (Variant.mapTy strip v) = goodVariant e.tag v := by
      intro v
      simp only [goodVariant, Variant.mapTy, List.all_map]
      rfl
    simp only [goodDecl, Decl.mapTy, List.all_map] at this ⊢
    rw [← this]
    congr 2
    funext v
    exact congrArg (v.skipDe || ·) (hv v)

theorem wellStyled_without {P : Program} (h : WellStyled P) : WellStyled (withoutWrappers P) := by
  intro d hd
  obtain ⟨d, hm, rfl⟩ := List.mem_map.1 hd
  have := h d hm
  cases d with
  | struct s =>
    simp only [wellStyled, Decl.mapTy, List.all_map] at this ⊢
    exact this
  | enum e => rfl

/-- **C76.** Let the modules of a program and of the same program without wrappers load. A type with wrappers
and the type without them, whether it is written out or referred to, accept the same values, return the same for
each of them, and reject the same. -/
theorem C76_same_values (P : Program) (hg : GoodNames P) (hw : WellStyled P) (E E' : ZEnv) (hE : IsModule P E)
    (hE' : IsModule (withoutWrappers P) E') (hl : Loads P E) (hl' : Loads P E') (m : Method) (hm : m = .schema ∨ m = .inlineSchema)
    (t : Ty) (s s' : Str) (h : Returns P m t s) (h' : Returns (withoutWrappers P) m (strip t) s') (z z' : ZSchema)
    (hz : readSchema s = some z) (hz' : readSchema s' = some z') (v : JsVal) :
    (∀ r, ParsesTo E z v r ↔ ParsesTo E' z' v r) ∧ (Rejects E z v ↔ Rejects E' z' v) := by
  obtain ⟨n, hn⟩ := h
  obtain ⟨n', hn'⟩ := h'
  have hg' := goodNames_without hg
  have hw' := wellStyled_without hw
  rw [(eval_agree hg hw n m t s hm hn).read] at hz
  rw [(eval_agree hg' hw' n' m (strip t) s' hm hn').read] at hz'
  have hEo := envOk_of_module hg hw hE
  have hEo' : EnvOk (bare P) E' := envOk_of_module hg' hw' hE'
  have hL := linked hEo hEo' hl hl'
  have hF : Folded (Declared P) E' z z' := by
    rcases hm with rfl | rfl
    · exact (claims hEo' hl' n).1 t n' z z' hz hz'
    · exact (claims hEo' hl' n).2.2 t n' z z' hz hz'
  exact ⟨fun r => folded_parse hL hF v (some r), folded_parse hL hF v none⟩

/-- **C76, where a reference takes the place of a schema.** A wrapped type that is written out accepts the same
as the reference to the type without the wrapper: `Vec<Box<T>>` and `Vec<T>`. -/
theorem C76_reference (P : Program) (hg : GoodNames P) (hw : WellStyled P) (E E' : ZEnv) (hE : IsModule P E)
    (hE' : IsModule (withoutWrappers P) E') (hl : Loads P E) (hl' : Loads P E') (t : Ty) (s s' : Str) (h : Returns P .schema t s)
    (h' : Returns (withoutWrappers P) .inlineSchema (strip t) s') (z z' : ZSchema) (hz : readSchema s = some z)
    (hz' : readSchema s' = some z') (v : JsVal) :
    (∀ r, ParsesTo E z v r ↔ ParsesTo E' z' v r) ∧ (Rejects E z v ↔ Rejects E' z' v) := by
  obtain ⟨n, hn⟩ := h
  obtain ⟨n', hn'⟩ := h'
  have hg' := goodNames_without hg
  have hw' := wellStyled_without hw
  rw [(eval_agree hg hw n _ t s (Or.inl rfl) hn).read] at hz
  rw [(eval_agree hg' hw' n' _ (strip t) s' (Or.inr rfl) hn').read] at hz'
  have hEo := envOk_of_module hg hw hE
  have hEo' : EnvOk (bare P) E' := envOk_of_module hg' hw' hE'
  have hL := linked hEo hEo' hl hl'
  have hF : Folded (Declared P) E' z z' := (claims hEo' hl' n).2.1 t n' z z' hz hz'
  exact ⟨fun r => folded_parse hL hF v (some r), folded_parse hL hF v none⟩

/-- **C76, termination.** Without the wrappers, every function returns that returns with them. -/
theorem C76_returns (P : Program) (m : Method) (t : Ty) (s : Str) (h : Returns P m t s) :
    ∃ s', Returns (withoutWrappers P) m (strip t) s' := by
  obtain ⟨n, hn⟩ := h
  exact (bare_returns P n).1 m t s hn

/-- The converse is false: with `struct Node { next: Option<Box<Node>> }` generation does not return, while without
the box it would. -/
theorem C76_converse_false : ∃ (P : Program) (t : Ty) (s' : Str), Returns (withoutWrappers P) .schema (strip t) s' ∧
    ¬ ∃ s, Returns P .schema t s := by
  have hb : withoutWrappers exProgram =
    [ .struct (exStruct "User" [exField "id" (.prim .u32), exField "tags" (.vec (.prim .string)), exField "address" (.named 1)]),
      .struct (exStruct "Address" [exField "street" (.prim .string)]),
      .struct (exStruct "Node" [exField "next" (.option (.named 2))]),
      .struct (exStruct "Tree" [exField "children" (.vec (.named 3))]) ] := by
    simp [withoutWrappers, exProgram, Decl.mapTy, exStruct, exField, Field.mapTy, strip, From.mapTy]
  refine ⟨exProgram, .named 2, lit "z.object({next: z.lazy(() => Ns.Node).optional()})", (by rw [hb, strip]; exact ⟨9, rfl⟩), ?_⟩
  rw [C08_schema_iff exProgram exProgram_valid exProgram_plain exProgram_noFrom _ (.named (by decide))]
  refine fun h => h ⟨fun i => match i % 3 with
    | 0 => .named 2
    | 1 => .option (.wrap .box (.named 2))
    | _ => .wrap .box (.named 2), rfl, ?_⟩
  intro i
  have : i % 3 = 0 ∨ i % 3 = 1 ∨ i % 3 = 2 := by omega
  rcases this with h | h | h
  · have h' : (i + 1) % 3 = 1 := by omega
    simp only [h, h']
    exact ⟨.named 2 _ _ rfl (by simp [declTypes, fieldTypes, exStruct, exField, From.ty?]),
      fun h => by cases h⟩
  · have h' : (i + 1) % 3 = 2 := by omega
    simp only [h, h']
    exact ⟨.option _, fun h => by cases h⟩
  · have h' : (i + 1) % 3 = 0 := by omega
    simp only [h, h']
    exact ⟨.wrap _ _, fun _ => rfl⟩

/-! ## The hypotheses are met -/

/-- Two structs; the first mentions the second through wrappers at three places. -/
def exWrapped : Program :=
  [ .struct (exStruct "User" [exField "home" (.wrap .arc (.named 1)), exField "others" (.vec (.wrap .box (.named 1))),
      exField "age" (.wrap .cow (.prim .u8))]),
    .struct (exStruct "Address" [exField "street" (.prim .string)]) ]

theorem exWrapped_good : GoodNames exWrapped := by
  intro d hd
  simp only [exWrapped, List.mem_cons, List.not_mem_nil, or_false] at hd
  rcases hd with rfl | rfl <;> decide +kernel

theorem exWrapped_styled : WellStyled exWrapped := by
  intro d hd
  simp only [exWrapped, List.mem_cons, List.not_mem_nil, or_false] at hd
  rcases hd with rfl | rfl <;> decide +kernel

theorem exWrapped_bare : withoutWrappers exWrapped =
  [ .struct (exStruct "User" [exField "home" (.named 1), exField "others" (.vec (.named 1)), exField "age" (.prim .u8)]),
    .struct (exStruct "Address" [exField "street" (.prim .string)]) ] := by
  simp [withoutWrappers, exWrapped, Decl.mapTy, exStruct, exField, Field.mapTy, strip, From.mapTy]

theorem exWrapped_module : IsModule exWrapped (moduleEnv exWrapped 9) := by
  refine moduleEnv_isModule exWrapped_good exWrapped_styled (by unfold DistinctDecls; decide +kernel) ?_
  intro i d hd
  match i, hd with
  | 0, _ => exact ⟨_, rfl⟩
  | 1, _ => exact ⟨_, rfl⟩
  | n + 2, hd => simp [exWrapped] at hd

theorem exWrapped_module' : IsModule (withoutWrappers exWrapped) (moduleEnv (withoutWrappers exWrapped) 9) := by
  have hg := goodNames_without exWrapped_good
  have hw := wellStyled_without exWrapped_styled
  rw [exWrapped_bare] at hg hw ⊢
  refine moduleEnv_isModule hg hw (by unfold DistinctDecls; decide +kernel) ?_
  intro i d hd
  match i, hd with
  | 0, _ => exact ⟨_, rfl⟩
  | 1, _ => exact ⟨_, rfl⟩
  | n + 2, hd => simp at hd

theorem exWrapped_loads : Loads exWrapped (moduleEnv exWrapped 9) ∧
    Loads exWrapped (moduleEnv (withoutWrappers exWrapped) 9) := by
  rw [exWrapped_bare]
  constructor
  · intro d hd
    simp only [exWrapped, List.mem_cons, List.not_mem_nil, or_false] at hd
    rcases hd with rfl | rfl <;> exact fun h => by cases h
  · intro d hd
    simp only [exWrapped, List.mem_cons, List.not_mem_nil, or_false] at hd
    rcases hd with rfl | rfl <;> exact fun h => by cases h

set_option maxRecDepth 20000 in
/-- With wrappers the schema of `User` contains that of `Address`, without them it refers to it. -/
example : Returns exWrapped .schema (.named 0)
    (lit "z.object({home: z.object({street: z.string()}),\nothers: z.array(z.object({street: z.string()})),\nage: z.number().finite().int().nonnegative().lte(255)})") ∧
    Returns (withoutWrappers exWrapped) .schema (strip (.named 0))
    (lit "z.object({home: z.lazy(() => Ns.Address),\nothers: z.array(z.lazy(() => Ns.Address)),\nage: z.number().finite().int().nonnegative().lte(255)})") := by
  rw [exWrapped_bare, strip]
  exact ⟨⟨9, rfl⟩, ⟨9, rfl⟩⟩

/-- A user with two addresses, which both schemas accept. -/
def exUserVal : JsVal :=
  .obj [(lit "home", .obj [(lit "street", .str (lit "a"))]), (lit "others", .arr [.obj [(lit "street", .str (lit "b"))]]),
    (lit "age", .num (.fin (7 : Int)))]

example : ∃ s s' z z' r, Returns exWrapped .schema (.named 0) s ∧ Returns (withoutWrappers exWrapped) .schema (strip (.named 0)) s' ∧
    readSchema s = some z ∧ readSchema s' = some z' ∧ ParsesTo (moduleEnv exWrapped 9) z exUserVal r ∧
    ParsesTo (moduleEnv (withoutWrappers exWrapped) 9) z' exUserVal r := by
  have h0 : ∃ s, eval exWrapped 9 .schema (.named 0) = some s := ⟨_, rfl⟩
  obtain ⟨s, hs⟩ := h0
  obtain ⟨s', n, hs'⟩ := C76_returns exWrapped .schema (.named 0) s ⟨9, hs⟩
  have hz := (eval_agree exWrapped_good exWrapped_styled 9 .schema (.named 0) s (Or.inl rfl) hs).read
  have hz' : readSchema s' = zOf (withoutWrappers exWrapped) 9 .schema (strip (.named 0)) := by
    have h9 : ∃ x, eval (withoutWrappers exWrapped) 9 .schema (strip (.named 0)) = some x := by
      rw [exWrapped_bare, strip]; exact ⟨_, rfl⟩
    obtain ⟨x, hx⟩ := h9
    rw [returns_unique ⟨n, hs'⟩ ⟨9, hx⟩]
    exact (eval_agree (goodNames_without exWrapped_good) (wellStyled_without exWrapped_styled) 9 .schema _ x (Or.inl rfl) hx).read
  have h1 : ∃ z, zOf exWrapped 9 .schema (.named 0) = some z ∧ ∃ r, parse (moduleEnv exWrapped 9) 9 z exUserVal = some (some r) :=
    ⟨_, rfl, _, rfl⟩
  have h2 : ∃ z', zOf (withoutWrappers exWrapped) 9 .schema (strip (.named 0)) = some z' := by
    rw [exWrapped_bare, strip]; exact ⟨_, rfl⟩
  obtain ⟨z, e, r, hr⟩ := h1
  obtain ⟨z', e'⟩ := h2
  rw [e] at hz; rw [e'] at hz'
  exact ⟨s, s', z, z', r, ⟨9, hs⟩, ⟨n, hs'⟩, hz, hz', ⟨9, hr⟩,
    ((C76_same_values exWrapped exWrapped_good exWrapped_styled _ _ exWrapped_module exWrapped_module' exWrapped_loads.1
      exWrapped_loads.2 .schema (Or.inl rfl) (.named 0) s s' ⟨9, hs⟩ ⟨n, hs'⟩ z z' hz hz' exUserVal).1 r).1 ⟨9, hr⟩⟩

end Verif.Props
