import Verif.Zod.Expand
import Verif.Zod.ExpandDe
import Verif.Zod.ExpandSer
import Verif.Props.Aliases

/-!
# C92: writing a type instead of the alias for it, in all declarations, makes no difference to what schemas accept
-/

namespace Verif.Props
open Verif Verif.Schema Verif.SchemaSpec Verif.Js Verif.Spec Verif.Zod

theorem goodNames_expand {P : Program} (a : Nat) (u : Ty) (h : GoodNames P) : GoodNames (expandAll a u P) := by
  intro d hd
  obtain ⟨d, hm, rfl⟩ := List.mem_map.1 hd
  have := h d hm
  cases d with
  | struct s =>
    simp only [goodDecl, Decl.mapTy, List.all_map] at this ⊢
    exact this
  | enum e =>
    have hv : ∀ v : Variant, goodVariant e.tag (Variant.mapTy (expand a u) v) = goodVariant e.tag v := by
      intro v
      simp only [goodVariant, Variant.mapTy, List.all_map]
      rfl
    simp only [goodDecl, Decl.mapTy, List.all_map] at this ⊢
    rw [← this]
    congr 2
    funext v
    exact congrArg (v.skipDe || ·) (hv v)

theorem wellStyled_expand {P : Program} (a : Nat) (u : Ty) (h : WellStyled P) : WellStyled (expandAll a u P) := by
  intro d hd
  obtain ⟨d, hm, rfl⟩ := List.mem_map.1 hd
  have := h d hm
  cases d with
  | struct s =>
    simp only [wellStyled, Decl.mapTy, List.all_map] at this ⊢
    exact this
  | enum e => rfl

/-- **C92.** Let a declared type stand for another type, which does not mention it, and let the modules of the program and of the
program with the other type in all its places load. Then the schemas of a type with the alias and of the type without it give the same
results for every value, whether it is written or referred to. -/
theorem C92_schema (P : Program) (hg : GoodNames P) (hw : WellStyled P) (a : Nat) (u : Ty) (hs : StandsFor P a u) (hu : NotIn a u)
    (E E' : ZEnv) (hE : IsModule P E) (hE' : IsModule (expandAll a u P) E') (hl : Loads P E) (hl' : Loads P E') (m : Method)
    (hm : m = .schema ∨ m = .inlineSchema) (t : Ty) (s s' : Str) (h : Returns P m t s)
    (h' : Returns (expandAll a u P) m (expand a u t) s') (z z' : ZSchema) (hz : readSchema s = some z) (hz' : readSchema s' = some z')
    (v : JsVal) : (∀ r, ParsesTo E z v r ↔ ParsesTo E' z' v r) ∧ (Rejects E z v ↔ Rejects E' z' v) := by
  obtain ⟨n, hn⟩ := h
  obtain ⟨n', hn'⟩ := h'
  have hg' := goodNames_expand a u hg
  have hw' := wellStyled_expand a u hw
  rw [(eval_agree hg hw n m t s hm hn).read] at hz
  rw [(eval_agree hg' hw' n' m _ s' hm hn').read] at hz'
  have hEo := envOk_of_module hg hw hE
  have hEo' := envOk_of_module hg' hw' hE'
  have hL := expand_linked hs hu hEo hEo' hl hl'
  have hF : Folded (Declared P) E z' z := by
    rcases hm with rfl | rfl
    · exact (expand_claims hs hu hEo hl n').2.1 t n z z' hz hz'
    · exact (expand_claims hs hu hEo hl n').2.2.1 t n z z' hz hz'
  exact ⟨fun r => (folded_parse hL hF v (some r)).symm, (folded_parse hL hF v none).symm⟩

/-- **C92, exports.** What the two modules export under the name of a declared type, also under that of the alias, gives the same
results. -/
theorem C92_exports (P : Program) (hg : GoodNames P) (hw : WellStyled P) (a : Nat) (u : Ty) (hs : StandsFor P a u) (hu : NotIn a u)
    (E E' : ZEnv) (hE : IsModule P E) (hE' : IsModule (expandAll a u P) E') (hl : Loads P E) (hl' : Loads P E') (d : Decl) (hd : d ∈ P) :
    ∃ z z', E.const d.ns d.name = some z ∧ E'.const d.ns d.name = some z' ∧
      ∀ v, (∀ r, ParsesTo E z v r ↔ ParsesTo E' z' v r) ∧ (Rejects E z v ↔ Rejects E' z' v) := by
  have hL := expand_linked hs hu (envOk_of_module hg hw hE) (envOk_of_module (goodNames_expand a u hg) (wellStyled_expand a u hw) hE') hl hl'
  obtain ⟨z', z, h', h, hF⟩ := hL d.ns d.name ⟨d, hd, rfl, rfl⟩
  exact ⟨z, z', h, h', fun v => ⟨fun r => (folded_parse hL hF v (some r)).symm, (folded_parse hL hF v none).symm⟩⟩

/-- **C92, serde.** What serde reads as a type with the alias it reads as the type without it, unless the conversion may fail. -/
theorem C92_read (P : Program) (a : Nat) (u : Ty) (hs : StandsFor P a u) (hu : NotIn a u) (hp : isPhantom u = false)
    (hf : ∀ d x, P[a]? = some d → Decl.from_ d ≠ .tryFrom x) (t : Ty) (j : Json) (h : De P t j) :
    De (expandAll a u P) (expand a u t) j :=
  de_expand hs hu hp hf h

/-- **C92, serde, both directions.** If besides a field of the alias may be missing whenever a field of the other type may, and the
other type is not a string (that could become the key of a map), serde reads the same documents. -/
theorem C92_read_iff (P : Program) (a : Nat) (u : Ty) (hs : StandsFor P a u) (hu : NotIn a u) (hp : isPhantom u = false)
    (hf : ∀ d x, P[a]? = some d → Decl.from_ d ≠ .tryFrom x) (hm : MissingOk P u → MissingOk P (.named a))
    (hk : u ≠ .prim .string ∧ u ≠ .prim .smolStr) (t : Ty) (j : Json) : De P t j ↔ De (expandAll a u P) (expand a u t) j := by
  refine ⟨de_expand hs hu hp hf, fun h => de_back hs hu hp hf hm ?_ h t rfl⟩
  intro k p hps e
  by_cases ht : k = .named a
  · subst ht
    rw [expand_alias] at e
    subst e
    rcases hps with rfl | rfl
    · exact absurd rfl hk.1
    · exact absurd rfl hk.2
  · exact expand_inv ht e

/-- **C92, what serde writes.** If the attributes of the alias for writing are the counterparts of those for reading, and no `into`
mentions the alias (`expandAll` does not change `into`), serde writes every document it wrote before. -/
theorem C92_written (P : Program) (a : Nat) (u : Ty) (hs : StandsFor P a u) (hu : NotIn a u) (hp : isPhantom u = false)
    (hi : ∀ d, P[a]? = some d → Decl.into d = some u ∨ (Decl.from_ d = .none ∧ Decl.into d = none))
    (hser : ∀ s, P[a]? = some (.struct s) → serFields s.fields = keptFields s.fields)
    (hin : ∀ (i : Nat) d t, P[i]? = some d → Decl.into d = some t → NotIn a t) (odd : Bool) (t : Ty) (j : Json) (h : Ser P odd t j) :
    Ser (expandAll a u P) odd (expand a u t) j :=
  ser_expand hs hu hp hi hser hin h

/-- **C92, what serde writes, both directions.** If besides the other type is neither an `Option` nor a text, serde writes the same
documents. -/
theorem C92_written_iff (P : Program) (a : Nat) (u : Ty) (hs : StandsFor P a u) (hu : NotIn a u) (hp : isPhantom u = false)
    (hi : ∀ d, P[a]? = some d → Decl.into d = some u ∨ (Decl.from_ d = .none ∧ Decl.into d = none))
    (hser : ∀ s, P[a]? = some (.struct s) → serFields s.fields = keptFields s.fields)
    (hin : ∀ (i : Nat) d t, P[i]? = some d → Decl.into d = some t → NotIn a t)
    (ho : ∀ t, u ≠ .option t) (hk : u ≠ .prim .string ∧ u ≠ .prim .strRef ∧ u ≠ .prim .smolStr) (odd : Bool) (t : Ty) (j : Json) :
    Ser P odd t j ↔ Ser (expandAll a u P) odd (expand a u t) j := by
  refine ⟨ser_expand hs hu hp hi hser hin, fun h => expandSer_back hs hu hp hi hser hin ?_ ?_ h t rfl⟩
  · intro k p hps e
    by_cases ht : k = .named a
    · subst ht
      rw [expand_alias] at e
      subst e
      rcases hps with rfl | rfl | rfl
      · exact absurd rfl hk.1
      · exact absurd rfl hk.2.1
      · exact absurd rfl hk.2.2
    · exact expand_inv ht e
  · intro k y e
    by_cases ht : k = .named a
    · subst ht
      rw [expand_alias] at e
      exact absurd e (ho y)
    · exact expand_inv ht e

/-- `struct Opt(Option<u8>);`, `struct S { a: Opt }`. -/
def exOpt : Program :=
  [ .struct (exTuple "Opt" [exPos (.option (.prim .u8))]), .struct (exStruct "S" [exField "a" (.named 0)]) ]

theorem exOpt_expand : expandAll 0 (.option (.prim .u8)) exOpt =
  [ .struct (exTuple "Opt" [exPos (.option (.prim .u8))]), .struct (exStruct "S" [exField "a" (.option (.prim .u8))]) ] := by
  simp [expandAll, exOpt, Decl.mapTy, exStruct, exTuple, exPos, exField, Field.mapTy, expand, From.mapTy]

theorem exOpt_stands : StandsFor exOpt 0 (.option (.prim .u8)) :=
  .newtype 0 _ (exPos (.option (.prim .u8))) rfl rfl rfl rfl rfl rfl rfl rfl

/-- **C92, serde, why the condition is needed.** serde does not read `{}` as `struct S { a: Opt }` where `struct Opt(Option<u8>);`, but
it does with `a: Option<u8>`. -/
theorem C92_missing_changes : ∃ (P : Program) (a : Nat) (u : Ty), StandsFor P a u ∧ NotIn a u ∧ isPhantom u = false ∧
    (∀ d x, P[a]? = some d → Decl.from_ d ≠ .tryFrom x) ∧ ∃ (t : Ty) (j : Json), ¬ De P t j ∧ De (expandAll a u P) (expand a u t) j := by
  refine ⟨exOpt, 0, .option (.prim .u8), exOpt_stands, (fun _ => by simp [expand]), rfl, ?_, .named 1, .obj [], ?_, ?_⟩
  · intro d x hd
    cases hd
    nofun
  · intro h
    have hmiss : ¬ MissingOk exOpt (.named 0) := by
      intro h
      cases h with
      | from_ _ d t hd hf => cases hd; cases hf
      | transparent _ s f hd _ ht => cases hd; cases ht
    have hfield : ¬ DeField exOpt (exField "a" (.named 0)) [] := by
      intro h
      cases h with
      | present _ _ j _ hj => cases hj
      | alias _ _ b j _ hb => cases hb
      | default _ _ _ _ hd => cases hd
      | missing _ _ _ _ hm => exact hmiss hm
    cases h with
    | from_ _ d t _ hd hf => cases hd; cases hf
    | transparent _ s f _ hd _ ht => cases hd; cases ht
    | struct _ s _ hd _ _ hb =>
      cases hd
      cases hb with
      | named _ _ _ _ _ h _ => exact hfield (h (exField "a" (.named 0)) List.mem_cons_self rfl rfl)
    | internalUnit _ e _ _ _ hd => cases hd
    | internal _ e _ _ _ hd => cases hd
    | internalNewtype _ e _ _ _ _ hd => cases hd
    | adjacentUnit _ e _ _ _ _ hd => cases hd
    | adjacent _ e _ _ _ _ _ hd => cases hd
    | untagged _ e _ _ hd => cases hd
  · rw [exOpt_expand, expand_named_ne (by decide)]
    refine .struct 1 (exStruct "S" [exField "a" (.option (.prim .u8))]) _ rfl rfl rfl (.named _ _ _ (by simp) (by intro n hn; cases hn) ?_ ?_)
    · intro f hf _ _
      obtain rfl := List.mem_singleton.1 hf
      exact .missing _ _ rfl (fun a _ => rfl) (.option _)
    · intro f hf _ hfl
      obtain rfl := List.mem_singleton.1 hf
      cases hfl

/-! ## An example -/

/-- `Id` is written as `u32`. -/
theorem exStand_expand : expandAll 1 (.prim .u32) exStand =
  [ .struct (exStruct "User" [exField "id" (.prim .u32)]),
    .struct (exTuple "Id" [exPos (.prim .u32)]),
    .struct { exStruct "Account" [exField "user" (.named 0)] with transparent := true },
    .struct { exStruct "Checked" [exField "a" (.prim .string)] with from_ := .tryFrom (.named 2) },
    .enum { exEnum "Kind" .external [exVariant "A" .unit []] with from_ := .from_ (.named 0) } ] := by
  simp [expandAll, exStand, Decl.mapTy, exStruct, exTuple, exEnum, exVariant, exPos, exField, Field.mapTy, expand, From.mapTy]

theorem exStand_module' : IsModule (expandAll 1 (.prim .u32) exStand) (moduleEnv (expandAll 1 (.prim .u32) exStand) 9) := by
  refine moduleEnv_isModule (goodNames_expand _ _ exStand_good) (wellStyled_expand _ _ exStand_styled) ?_ (fun i d hd => ?_)
  · rw [exStand_expand]; unfold DistinctDecls; decide +kernel
  · rw [exStand_expand] at hd ⊢
    match i, hd with
    | 0, _ => exact ⟨_, rfl⟩
    | 1, _ => exact ⟨_, rfl⟩
    | 2, _ => exact ⟨_, rfl⟩
    | 3, _ => exact ⟨_, rfl⟩
    | 4, _ => exact ⟨_, rfl⟩
    | n + 5, hd => simp at hd

theorem exStand_loads' : Loads exStand (moduleEnv (expandAll 1 (.prim .u32) exStand) 9) := by
  rw [exStand_expand]
  intro d hd
  simp only [exStand, List.mem_cons, List.not_mem_nil, or_false] at hd
  rcases hd with rfl | rfl | rfl | rfl | rfl <;> decide +kernel

/-- The texts differ. -/
theorem exStand_user : Returns exStand .schema (.named 0) (lit "z.object({id: z.lazy(() => Ns.Id)})") ∧
    Returns (expandAll 1 (.prim .u32) exStand) .schema (expand 1 (.prim .u32) (.named 0))
      (lit "z.object({id: z.number().finite().int().nonnegative().lte(4294967295)})") := by
  rw [exStand_expand, expand_named_ne (by decide)]
  exact ⟨⟨9, rfl⟩, ⟨9, rfl⟩⟩

/-- Both schemas of `User` accept `{ id: 1 }`. -/
example : ∃ z z' r, readSchema (lit "z.object({id: z.lazy(() => Ns.Id)})") = some z ∧
    readSchema (lit "z.object({id: z.number().finite().int().nonnegative().lte(4294967295)})") = some z' ∧
    ParsesTo (moduleEnv exStand 9) z (.obj [(lit "id", .num (.fin (1 : Int)))]) r ∧
    ParsesTo (moduleEnv (expandAll 1 (.prim .u32) exStand) 9) z' (.obj [(lit "id", .num (.fin (1 : Int)))]) r := by
  have hz' : ∃ z', readSchema (lit "z.object({id: z.number().finite().int().nonnegative().lte(4294967295)})") = some z' := by
    have hr : eval (expandAll 1 (.prim .u32) exStand) 9 .schema (.named 0) =
        some (lit "z.object({id: z.number().finite().int().nonnegative().lte(4294967295)})") := by rw [exStand_expand]; rfl
    rw [(eval_agree (goodNames_expand _ _ exStand_good) (wellStyled_expand _ _ exStand_styled) 9 .schema (.named 0) _ (.inl rfl) hr).read,
      exStand_expand]
    exact ⟨_, rfl⟩
  obtain ⟨z', hz'⟩ := hz'
  have hr : ∃ r, ParsesTo (moduleEnv exStand 9) (.object [(lit "id", .lazy (lit "Ns") (lit "Id"))])
      (.obj [(lit "id", .num (.fin (1 : Int)))]) r := ⟨_, 9, rfl⟩
  obtain ⟨r, hr⟩ := hr
  exact ⟨_, z', r, exStand_reads.2, hz', hr, ((C92_schema exStand exStand_good exStand_styled 1 (.prim .u32)
    (.newtype 1 _ (exPos (.prim .u32)) rfl rfl rfl rfl rfl rfl rfl rfl) (fun _ => by rw [expand]) _ _ exStand_module exStand_module'
    exStand_loads exStand_loads' .schema (.inl rfl) (.named 0) _ _ exStand_user.1 exStand_user.2 _ _ exStand_reads.2 hz' _).1 r).1 hr⟩

/-- `Id` may be replaced: serde reads the same documents as `User` and as a list of accounts. -/
example (j : Json) : De exStand (.vec (.named 2)) j ↔ De (expandAll 1 (.prim .u32) exStand) (.vec (.named 2)) j := by
  have := C92_read_iff exStand 1 (.prim .u32) (.newtype 1 _ (exPos (.prim .u32)) rfl rfl rfl rfl rfl rfl rfl rfl) (fun _ => by rw [expand]) rfl
    (by intro d x h; cases h; nofun) (by intro h; cases h) ⟨nofun, nofun⟩ (.vec (.named 2)) j
  rw [expand, expand_named_ne (by decide)] at this
  exact this

/-- ... and writes the same documents. -/
example (j : Json) : Ser exStand false (.vec (.named 2)) j ↔ Ser (expandAll 1 (.prim .u32) exStand) false (.vec (.named 2)) j := by
  have := C92_written_iff exStand 1 (.prim .u32) (.newtype 1 _ (exPos (.prim .u32)) rfl rfl rfl rfl rfl rfl rfl rfl) (fun _ => by rw [expand]) rfl
    (by intro d h; cases h; exact .inr ⟨rfl, rfl⟩) (by intro s h; cases h; rfl)
    (by
      intro i d t hd hin
      match i, hd with
      | 0, hd => cases hd; cases hin
      | 1, hd => cases hd; cases hin
      | 2, hd => cases hd; cases hin
      | 3, hd => cases hd; cases hin
      | 4, hd => cases hd; cases hin
      | i + 5, hd => simp [exStand] at hd)
    nofun ⟨nofun, nofun, nofun⟩ false (.vec (.named 2)) j
  rw [expand, expand_named_ne (by decide)] at this
  exact this

end Verif.Props
