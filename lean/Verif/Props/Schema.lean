import Verif.Schema.Norm

/-!
# Properties C08 to C12: schema generation
-/

namespace Verif.Props
open Verif Verif.Schema Verif.SchemaSpec

/-! ## Programs used to show that the hypotheses can be met -/

def exField (name : String) (ty : Ty) : Field where
  named := true
  name := name.toList
  ty := ty
  skipDe := false
  dflt := false
  flatten := false
  serName := name.toList
  skipSer := false
  skipIfNone := false

def exStruct (name : String) (fields : List Field) : StructDecl where
  ns := lit "Ns"
  name := name.toList
  attrs := []
  transparent := false
  from_ := .none
  into := none
  style := .named
  fields := fields

def exTuple (name : String) (fields : List Field) : StructDecl :=
  { exStruct name fields with style := .tuple }

/-- `struct User { id: u32, tags: Vec<String>, address: Address }`, `struct Address { street: String }`,
`struct Node { next: Option<Box<Node>> }`, `struct Tree { children: Vec<Tree> }`. -/
def exProgram : Program :=
  [ .struct (exStruct "User" [exField "id" (.prim .u32), exField "tags" (.vec (.prim .string)),
      exField "address" (.named 1)]),
    .struct (exStruct "Address" [exField "street" (.prim .string)]),
    .struct (exStruct "Node" [exField "next" (.option (.wrap .box (.named 2)))]),
    .struct (exStruct "Tree" [exField "children" (.vec (.named 3))]) ]

theorem exProgram_valid : Valid exProgram := by
  constructor
  · intro d hd
    simp only [exProgram, List.mem_cons, List.not_mem_nil, or_false] at hd
    rcases hd with e | e | e | e <;> subst e <;> exact ⟨_, rfl⟩
  · intro d hd t ht
    simp only [exProgram, List.mem_cons, List.not_mem_nil, or_false] at hd
    rcases hd with e | e | e | e <;> subst e <;>
      simp [declTypes, fieldTypes, exStruct, exField, From.ty?] at ht
    · rcases ht with e | e | e <;> subst e
      · exact .prim _
      · exact .vec (.prim _)
      · exact .named (by decide)
    · subst ht; exact .prim _
    · subst ht; exact .option (.wrap _ (.named (by decide)))
    · subst ht; exact .vec (.named (by decide))

theorem exProgram_plain : ∀ d ∈ exProgram, Plain d := by
  intro d hd
  simp only [exProgram, List.mem_cons, List.not_mem_nil, or_false] at hd
  rcases hd with e | e | e | e <;> subst e <;> simp [Plain, exStruct]

theorem exProgram_noFrom : ∀ d ∈ exProgram, NoFrom d := by
  intro d hd
  simp only [exProgram, List.mem_cons, List.not_mem_nil, or_false] at hd
  rcases hd with e | e | e | e <;> subst e <;> rfl

/-! ## C08 -/

/-- C08: a call of `schema`, `inline_schema`, `type_def` or `inline` returns iff the calls nested in it
do not go on forever. -/
theorem C08_returns_iff (P : Program) (hv : Valid P) (m : Method) (t : Ty) (ht : InScope P t) :
    (∃ s, Returns P m t s) ↔ ¬ EndlessCalls P (m, t) := by
  constructor
  · rintro ⟨s, n, h⟩
    exact acc_iff_not_endless.1 (returns_acc h)
  · intro h
    exact acc_returns hv (a := (m, t)) (acc_iff_not_endless.2 h) ht

/-- C08: types that cannot be taken apart forever are safe for all four functions. -/
theorem C08_nonrecursive_returns (P : Program) (hv : Valid P) (t : Ty) (ht : InScope P t)
    (h : ¬ Recursive P t) (m : Method) : ∃ s, Returns P m t s :=
  nonrec_returns hv (acc_iff_not_endless.2 h) ht m

/-- C08: `type_def()` returns iff the definitions printed inside each other end. -/
theorem C08_type_def_iff (P : Program) (hv : Valid P) (hp : ∀ d ∈ P, Plain d) (hf : ∀ d ∈ P, NoFrom d)
    (t : Ty) (ht : InScope P t) : (∃ s, Returns P .typeDef t s) ↔ ¬ Endless (TypeExpands P) t := by
  constructor
  · rintro ⟨s, n, h⟩
    exact acc_iff_not_endless.1 (typeDef_acc hp hf h)
  · intro h
    exact acc_typeDef hv hf (acc_iff_not_endless.2 h) ht

/-- C08: `schema()` returns iff the schemas printed inside each other end. -/
theorem C08_schema_iff (P : Program) (hv : Valid P) (hp : ∀ d ∈ P, Plain d) (hf : ∀ d ∈ P, NoFrom d)
    (t : Ty) (ht : InScope P t) : (∃ s, Returns P .schema t s) ↔ ¬ Endless (SchemaExpands P) t := by
  constructor
  · rintro ⟨s, n, h⟩
    exact acc_iff_not_endless.1 (schema_acc hp hf h)
  · intro h
    exact acc_schema hv hf (acc_iff_not_endless.2 h) ht

theorem transGen_head {α : Type} {r : α → α → Prop} {a b c : α} (h1 : r a b)
    (h2 : Relation.TransGen r b c) : Relation.TransGen r a c := by
  induction h2 with
  | single h => exact .tail (.single h1) h
  | tail _ h ih => exact .tail ih h

theorem behind_expands {P : Program} {t u : Ty} (h : Behind P t u) :
    Relation.TransGen (TypeExpands P) t u := by
  induction h with
  | part hn hp => exact .single ⟨hp, fun h => by rw [hn] at h; cases h⟩
  | step hn hp _ ih => exact transGen_head ⟨hp, fun h => by rw [hn] at h; cases h⟩ ih

theorem acc_not_cycle {α : Type} {r : α → α → Prop} {a : α} (h : Acc (fun b a => r a b) a) :
    ¬ Relation.TransGen r a a := by
  induction h with
  | intro a _ ih =>
    intro hc
    have first : ∀ b, Relation.TransGen r a b → ∃ c, r a c ∧ (c = b ∨ Relation.TransGen r c b) := by
      intro b hb
      induction hb with
      | single h => exact ⟨_, h, .inl rfl⟩
      | tail _ h ih =>
        obtain ⟨c, hc, h' | h'⟩ := ih
        · subst h'; exact ⟨c, hc, .inr (.single h)⟩
        · exact ⟨c, hc, .inr (.tail h' h)⟩
    obtain ⟨c, hac, h' | h'⟩ := first a hc
    · subst h'; exact ih c hac hc
    · exact ih c hac (.tail h' hac)

/-- C08: `type_def()` of a derived type with a field that contains the type itself behind `Box`, `Vec`,
`Option`, ... never returns. -/
theorem C08_self_reference_diverges (P : Program) (hp : ∀ d ∈ P, Plain d) (hf : ∀ d ∈ P, NoFrom d)
    (i : Nat) (d : Decl) (hd : P[i]? = some d) (u : Ty) (hu : u ∈ declTypes d)
    (hb : Behind P u (.named i)) : ¬ ∃ s, Returns P .typeDef (.named i) s := by
  rintro ⟨s, n, h⟩
  have hacc := typeDef_acc hp hf h
  have hn : isNamed u = false := by cases hb <;> assumption
  have h1 : TypeExpands P (.named i) u := ⟨.named i d u hd hu, fun _ => hn⟩
  have h2 := behind_expands hb
  exact acc_not_cycle hacc (transGen_head h1 h2)

example : ¬ Recursive exProgram (.named 0) := by
  refine (acc_iff_not_endless (r := Part exProgram)).1 ?_
  have hprim : ∀ p, Acc (fun b a => Part exProgram a b) (.prim p) :=
    fun p => Acc.intro _ (fun u h => by cases h)
  have haddr : Acc (fun b a => Part exProgram a b) (.named 1) := by
    refine Acc.intro _ (fun u h => ?_)
    cases h with
    | named _ d _ hd ht =>
      cases hd
      simp [declTypes, fieldTypes, exStruct, exField, From.ty?] at ht
      subst ht; exact hprim _
  refine Acc.intro _ (fun u h => ?_)
  cases h with
  | named _ d _ hd ht =>
    cases hd
    simp [declTypes, fieldTypes, exStruct, exField, From.ty?] at ht
    rcases ht with e | e | e <;> subst e
    · exact hprim _
    · exact Acc.intro _ (fun u h => by cases h; exact hprim _)
    · exact haddr

/-- `Node`'s `type_def()` and `schema()` do not return; `Tree`'s `schema()` does. -/
example : ¬ ∃ s, Returns exProgram .typeDef (.named 2) s :=
  C08_self_reference_diverges exProgram exProgram_plain exProgram_noFrom 2 _ rfl
    (.option (.wrap .box (.named 2))) (by simp [declTypes, fieldTypes, exStruct, exField, From.ty?])
    (.step rfl (.option _) (.part rfl (.wrap _ _)))

example : ¬ ∃ s, Returns exProgram .schema (.named 2) s := by
  rw [C08_schema_iff exProgram exProgram_valid exProgram_plain exProgram_noFrom _ (.named (by decide))]
  refine fun h => h ⟨fun i => match i % 3 with
    | 0 => .named 2
    | 1 => .option (.wrap .box (.named 2))
    | _ => .wrap .box (.named 2), rfl, ?_⟩
  intro i
  have : i % 3 = 0 ∨ i % 3 = 1 ∨ i % 3 = 2 := by omega
  rcases this with h | h | h
  · have h' : (i + 1) % 3 = 1 := by omega
    simp only [h, h']
    exact ⟨.named 2 _ _ rfl (by simp [declTypes, fieldTypes, exStruct, exField, From.ty?]),
      fun h => by cases h⟩
  · have h' : (i + 1) % 3 = 2 := by omega
    simp only [h, h']
    exact ⟨.option _, fun h => by cases h⟩
  · have h' : (i + 1) % 3 = 0 := by omega
    simp only [h, h']
    exact ⟨.wrap _ _, fun _ => rfl⟩

example : Returns exProgram .schema (.named 3)
    (lit "z.object({children: z.array(z.lazy(() => Ns.Tree))})") := ⟨5, rfl⟩

example : ¬ ∃ s, Returns exProgram .typeDef (.named 3) s :=
  C08_self_reference_diverges exProgram exProgram_plain exProgram_noFrom 3 _ rfl
    (.vec (.named 3)) (by simp [declTypes, fieldTypes, exStruct, exField, From.ty?])
    (.part rfl (.vec _))

/-! ## C09 -/

/-- C09: the schema reference of a derived type is `z.lazy(() => NS.NAME)`, its type reference `NS.NAME`,
whatever the program, the fields, the variants and the attributes are. -/
theorem C09_references (P : Program) (i : Nat) (d : Decl) (hi : P[i]? = some d)
    (hd : ∃ impl, derive d = .ok impl) (hf : NoFrom d) (s : Str) :
    (Returns P .inlineSchema (.named i) s ↔
      s = lit "z.lazy(() => " ++ d.ns ++ lit "." ++ d.name ++ lit ")") ∧
    (Returns P .inline (.named i) s ↔ s = d.ns ++ lit "." ++ d.name) := by
  obtain ⟨impl, hd⟩ := hd
  obtain ⟨h1, h2⟩ := derive_refs hf hd
  constructor
  · rw [returns_body (body_named_eq hi hd), Impl.get, h1, lazyRef]
    constructor
    · rintro ⟨n, h⟩; exact runPieces_txt_some.1 h
    · intro h; exact ⟨0, runPieces_txt_some.2 h⟩
  · rw [returns_body (body_named_eq hi hd), Impl.get, h2, tsRef]
    constructor
    · rintro ⟨n, h⟩; exact runPieces_txt_some.1 h
    · intro h; exact ⟨0, runPieces_txt_some.2 h⟩

/-- C09, structs with `from` / `try_from`: the schema reference is still by name (the type reference is
not, it is that of the other type). -/
theorem C09_struct_from (P : Program) (i : Nat) (d : StructDecl) (t : Ty) (hi : P[i]? = some (.struct d))
    (hd : ∃ impl, derive (.struct d) = .ok impl) (hf : d.from_.ty? = some t) (s : Str) :
    (Returns P .inlineSchema (.named i) s ↔
      s = lit "z.lazy(() => " ++ d.ns ++ lit "." ++ d.name ++ lit ")") ∧
    (Returns P .inline (.named i) s ↔ Returns P .inline t s) := by
  obtain ⟨impl, hd⟩ := hd
  obtain ⟨docs, sch, td, _, _, _, _, e⟩ := deriveStruct_ok hd
  rw [hf] at e
  constructor
  · rw [returns_body (body_named_eq hi hd), Impl.get, e, lazyRef]
    constructor
    · rintro ⟨n, h⟩; exact runPieces_txt_some.1 h
    · intro h; exact ⟨0, runPieces_txt_some.2 h⟩
  · refine returns_single ?_
    rw [body_named_eq hi hd, e]; rfl

/-- C09, enums with `from` / `try_from`: everything is that of the other type. -/
theorem C09_enum_from (P : Program) (i : Nat) (d : EnumDecl) (t : Ty) (hi : P[i]? = some (.enum d))
    (hd : ∃ impl, derive (.enum d) = .ok impl) (hf : d.from_.ty? = some t) (m : Method) (s : Str) :
    Returns P m (.named i) s ↔ Returns P m t s := by
  obtain ⟨impl, hd⟩ := hd
  obtain ⟨docs, sch, td, _, _, _, e⟩ := deriveEnum_ok hd
  rw [hf] at e
  refine returns_single ?_
  rw [body_named_eq hi hd, e]; cases m <;> rfl

example : Returns exProgram .inlineSchema (.named 2) (lit "z.lazy(() => Ns.Node)") :=
  ((C09_references exProgram 2 _ rfl ⟨_, rfl⟩ rfl _).1).2 rfl

/-! ## C10 -/

theorem filter_idem {α : Type} (p : α → Bool) (l : List α) : (l.filter p).filter p = l.filter p := by
  rw [List.filter_filter]; congr 1; funext x; cases p x <;> rfl

theorem kept_keptOnly (v : Variant) :
    ({ v with fields := v.fields.filter (fun f => !f.skipDe) } : Variant).kept = v.kept := by
  unfold Variant.kept; exact filter_idem _ _

theorem variantSchema_congr {v w : Variant} (tag : Tag) (h1 : v.style = w.style) (h2 : v.name = w.name)
    (h3 : v.kept = w.kept) : variantSchema tag v = variantSchema tag w := by
  unfold variantSchema structVariantSchema tupleVariantSchema
  rw [h1, h2, h3]

theorem variantTypeDef_congr {v w : Variant} (tag : Tag) (h1 : v.style = w.style) (h2 : v.name = w.name)
    (h3 : v.kept = w.kept) : variantTypeDef tag v = variantTypeDef tag w := by
  unfold variantTypeDef structVariantTypeDef tupleVariantTypeDef
  rw [h1, h2, h3]

theorem deriveStruct_congr {s s' : StructDecl} (h : structFields s = structFields s')
    (hrest : s = { s' with fields := s.fields }) : deriveStruct s = deriveStruct s' := by
  have h1 : s.attrs = s'.attrs := by rw [hrest]
  have h2 : s.style = s'.style := by rw [hrest]
  have h3 : s.from_ = s'.from_ := by rw [hrest]
  have h4 : s.ns = s'.ns := by rw [hrest]
  have h5 : s.name = s'.name := by rw [hrest]
  have h6 : s.transparent = s'.transparent := by rw [hrest]
  have e1 : structSchema s = structSchema s' := by unfold structSchema; rw [h, h2, h6]
  have e2 : structTypeDef s = structTypeDef s' := by unfold structTypeDef; rw [h, h2, h6]
  have e3 : structKind s = structKind s' := by unfold structKind; rw [h, h2, h6]
  unfold deriveStruct
  rw [h1, h2, h3, h4, h5, e1, e2, e3]

theorem ekept_keptOnly (e : EnumDecl) :
    ({ e with variants := (e.variants.filter (fun v => !v.skipDe)).map (fun v =>
      { v with fields := v.fields.filter (fun f => !f.skipDe) }) } : EnumDecl).kept =
    e.kept.map (fun v => { v with fields := v.fields.filter (fun f => !f.skipDe) }) := by
  unfold EnumDecl.kept
  simp only
  induction e.variants with
  | nil => rfl
  | cons v r ih =>
    simp only [List.filter_cons]
    cases h : v.skipDe with
    | true => simpa [h] using ih
    | false => simpa [h] using ih

theorem enum_keptOnly (e : EnumDecl) :
    let e' : EnumDecl := { e with variants := (e.variants.filter (fun v => !v.skipDe)).map (fun v =>
      { v with fields := v.fields.filter (fun f => !f.skipDe) }) }
    enumSchema e' = enumSchema e ∧ enumTypeDef e' = enumTypeDef e := by
  intro e'
  have hk : e'.kept = e.kept.map (fun v => { v with fields := v.fields.filter (fun f => !f.skipDe) }) :=
    ekept_keptOnly e
  have ht : e'.tag = e.tag := rfl
  constructor
  · unfold enumSchema
    rw [hk, ht]
    match e.kept with
    | [] => rfl
    | [v] => exact variantSchema_congr e.tag rfl rfl (kept_keptOnly v)
    | v :: w :: r =>
      simp only [List.map_cons, List.map_map]
      rw [variantSchema_congr (v := { v with fields := v.fields.filter (fun f => !f.skipDe) }) (w := v) e.tag rfl rfl (kept_keptOnly v),
        variantSchema_congr (v := { w with fields := w.fields.filter (fun f => !f.skipDe) }) (w := w) e.tag rfl rfl (kept_keptOnly w)]
      have : (variantSchema e.tag ∘ fun v : Variant => { v with fields := v.fields.filter (fun f => !f.skipDe) }) =
          variantSchema e.tag := by
        funext u; exact variantSchema_congr e.tag rfl rfl (kept_keptOnly u)
      rw [this]
  · unfold enumTypeDef
    rw [hk, ht]
    match e.kept with
    | [] => rfl
    | [v] => exact variantTypeDef_congr e.tag rfl rfl (kept_keptOnly v)
    | v :: w :: r =>
      simp only [List.map_cons, List.map_map]
      rw [variantTypeDef_congr (v := { v with fields := v.fields.filter (fun f => !f.skipDe) }) (w := v) e.tag rfl rfl (kept_keptOnly v),
        variantTypeDef_congr (v := { w with fields := w.fields.filter (fun f => !f.skipDe) }) (w := w) e.tag rfl rfl (kept_keptOnly w)]
      have : (variantTypeDef e.tag ∘ fun v : Variant => { v with fields := v.fields.filter (fun f => !f.skipDe) }) =
          variantTypeDef e.tag := by
        funext u; exact variantTypeDef_congr e.tag rfl rfl (kept_keptOnly u)
      rw [this]

theorem derive_keptOnly (d : Decl) : derive (keptOnly d) = derive d := by
  cases d with
  | struct s =>
    refine deriveStruct_congr ?_ rfl
    unfold structFields
    simp only [filter_idem]
  | enum e =>
    show deriveEnum _ = deriveEnum e
    unfold deriveEnum
    obtain ⟨h1, h2⟩ := enum_keptOnly e
    rw [h1, h2]

/-- C10: two declarations that are the same after their skipped fields and variants have been removed are
derived alike: the same error, or the same schema, TypeScript type and references. -/
theorem C10_derive (d d' : Decl) (h : keptOnly d = keptOnly d') : derive d = derive d' := by
  rw [← derive_keptOnly d, h, derive_keptOnly]

theorem body_congr {P Q : Program} (h : ∀ i : Nat, (P[i]?).map derive = (Q[i]?).map derive) (m : Method) (t : Ty) :
    body P m t = body Q m t := by
  cases t with
  | named i => simp only [body, h i]
  | _ => cases m <;> rfl

/-- C10, in a whole program: exchanging declarations for ones that agree on what is not skipped changes no
text. -/
theorem C10_program (P Q : Program) (h : P.map keptOnly = Q.map keptOnly) (m : Method) (t : Ty) (s : Str) :
    Returns P m t s ↔ Returns Q m t s := by
  have hd : ∀ i : Nat, (P[i]?).map derive = (Q[i]?).map derive := by
    intro i
    have := congrArg (fun l => l[i]?) h
    simp only [List.getElem?_map] at this
    cases hp : P[i]? with
    | none =>
      rw [hp] at this
      cases hq : Q[i]? with
      | none => rfl
      | some q => rw [hq] at this; cases this
    | some p =>
      rw [hp] at this
      cases hq : Q[i]? with
      | none => rw [hq] at this; cases this
      | some q =>
        rw [hq] at this
        simp only [Option.map_some, Option.some.injEq] at this ⊢
        exact C10_derive p q this
  have he : ∀ n m t, eval P n m t = eval Q n m t := by
    intro n
    induction n with
    | zero => intros; rfl
    | succ n ih =>
      intro m t
      rw [eval, eval, body_congr hd]
      have : eval P n = eval Q n := by funext m t; exact ih m t
      rw [this]
  unfold Returns
  simp only [he]

/-- C10: a skipped field may be added anywhere in a struct. -/
theorem C10_insert_field (s : StructDecl) (a b : List Field) (f : Field) (hf : f.skipDe = true) :
    derive (.struct { s with fields := a ++ f :: b }) = derive (.struct { s with fields := a ++ b }) :=
  C10_derive _ _ (by simp [keptOnly, hf])

/-- C10: a skipped variant may be added anywhere in an enum. -/
theorem C10_insert_variant (e : EnumDecl) (a b : List Variant) (v : Variant) (hv : v.skipDe = true) :
    derive (.enum { e with variants := a ++ v :: b }) = derive (.enum { e with variants := a ++ b }) :=
  C10_derive _ _ (by simp [keptOnly, hv])

/-- C10: a skipped field may be added anywhere in a variant. -/
theorem C10_insert_variant_field (e : EnumDecl) (vs ws : List Variant) (v : Variant) (a b : List Field)
    (f : Field) (hf : f.skipDe = true) :
    derive (.enum { e with variants := vs ++ { v with fields := a ++ f :: b } :: ws }) =
      derive (.enum { e with variants := vs ++ { v with fields := a ++ b } :: ws }) :=
  C10_derive _ _ (by cases hv : v.skipDe <;> simp [keptOnly, List.filter_cons, hf, hv])

example : (derive (.struct (exStruct "S" [exField "a" (.prim .u8), { exField "b" (.named 7) with skipDe := true },
      exField "c" (.prim .bool)]))).map (fun i => i.schema.length) = .ok 9 ∧
    derive (.struct (exStruct "S" [exField "a" (.prim .u8), { exField "b" (.named 7) with skipDe := true },
      exField "c" (.prim .bool)])) =
    derive (.struct (exStruct "S" [exField "a" (.prim .u8), exField "c" (.prim .bool)])) :=
  ⟨rfl, C10_insert_field (exStruct "S" []) [exField "a" (.prim .u8)] [exField "c" (.prim .bool)] _ rfl⟩

/-! ## C11 -/

theorem badDefault_iff (l : List SField) : (badDefault l).isSome = true ↔
    ∃ a f b g c, l = a ++ f :: b ++ g :: c ∧ f.optional = true ∧ g.optional = false := by
  unfold badDefault
  induction l with
  | nil => simp
  | cons x r ih =>
    rw [List.dropWhile_cons]
    cases hx : x.optional with
    | false =>
      simp only [Bool.not_false, if_true]
      rw [ih]
      constructor
      · rintro ⟨a, f, b, g, c, h, hf, hg⟩
        exact ⟨x :: a, f, b, g, c, by rw [h]; simp, hf, hg⟩
      · rintro ⟨a, f, b, g, c, h, hf, hg⟩
        cases a with
        | nil => simp at h; rw [← h.1, hx] at hf; cases hf
        | cons y a =>
          simp at h
          exact ⟨a, f, b, g, c, by simpa using h.2, hf, hg⟩
    | true =>
      simp only [Bool.not_true, Bool.false_eq_true, if_false]
      rw [List.find?_isSome]
      constructor
      · rintro ⟨g, hg, hgo⟩
        rcases List.mem_cons.1 hg with e | hg
        · subst e; simp [hx] at hgo
        · obtain ⟨b, c, e⟩ := List.append_of_mem hg
          exact ⟨[], x, b, g, c, by rw [e]; simp, hx, by simpa using hgo⟩
      · rintro ⟨a, f, b, g, c, h, hf, hg⟩
        exact ⟨g, by rw [h]; simp, by simp [hg]⟩

theorem map_split {α β : Type} {f : α → β} {l : List α} {a b c : List β} {x y : β}
    (h : l.map f = a ++ x :: b ++ y :: c) :
    ∃ a' x' b' y' c', l = a' ++ x' :: b' ++ y' :: c' ∧ f x' = x ∧ f y' = y := by
  obtain ⟨l1, l2, e, h1, h2⟩ := List.map_eq_append_iff.1 h
  obtain ⟨y', c', e2, hy, _⟩ := List.map_eq_cons_iff.1 h2
  obtain ⟨l3, l4, e3, h3, h4⟩ := List.map_eq_append_iff.1 h1
  obtain ⟨x', b', e4, hx, _⟩ := List.map_eq_cons_iff.1 h4
  exact ⟨l3, x', b', y', c', by rw [e, e2, e3, e4], hx, hy⟩

/-- C11: with at least two fields that are not skipped, deriving on a tuple struct (with parsable
attributes) fails with "non-default field follows default field" iff such a pair of fields exists, at any
distance, and succeeds otherwise. -/
theorem C11_default_order (s : StructDecl) (hst : s.style = .tuple) (htr : s.transparent = false)
    (hdoc : (Derive.docsText s.attrs).isSome = true) (hflat : ∀ f ∈ s.fields, f.flatten = false)
    (kept : List Field) (hk : kept = s.fields.filter (fun f => !f.skipDe)) (h2 : 2 ≤ kept.length) :
    (derive (.struct s) = .error .nonDefaultAfterDefault ↔
      ∃ a f b g c, kept = a ++ f :: b ++ g :: c ∧ f.dflt = true ∧ g.dflt = false) ∧
    ((∃ impl, derive (.struct s) = .ok impl) ↔
      ¬ ∃ a f b g c, kept = a ++ f :: b ++ g :: c ∧ f.dflt = true ∧ g.dflt = false) := by
  have hsf : structFields s = kept.map (SField.ofField s.transparent) := by rw [hk]; rfl
  have hnf : (structFields s).filter (fun f => !f.flatten) = structFields s := by
    rw [List.filter_eq_self, hsf]
    intro g hg
    obtain ⟨f, hf, e⟩ := List.mem_map.1 hg
    subst e
    rw [hk] at hf
    simp [SField.ofField, hflat f (List.mem_filter.1 hf).1]
  have hbad : (badDefault (structFields s)).isSome = true ↔
      ∃ a f b g c, kept = a ++ f :: b ++ g :: c ∧ f.dflt = true ∧ g.dflt = false := by
    rw [badDefault_iff, hsf]
    constructor
    · rintro ⟨a, f, b, g, c, h, hf, hg⟩
      obtain ⟨a', f', b', g', c', e, e1, e2⟩ := map_split h
      subst e1 e2
      exact ⟨a', f', b', g', c', e, hf, hg⟩
    · rintro ⟨a, f, b, g, c, h, hf, hg⟩
      exact ⟨_, SField.ofField s.transparent f, _, SField.ofField s.transparent g, _, by rw [h]; simp; rfl, hf, hg⟩
  have hlen : 2 ≤ (structFields s).length := by rw [hsf]; simpa using h2
  obtain ⟨docs, hdoc⟩ := Option.isSome_iff_exists.1 hdoc
  obtain ⟨x, y, r, hxyr⟩ : ∃ x y r, structFields s = x :: y :: r := by
    match hh : structFields s with
    | [] => rw [hh] at hlen; simp at hlen
    | [x] => rw [hh] at hlen; simp at hlen
    | x :: y :: r => exact ⟨x, y, r, rfl⟩
  have hne : s.style ≠ .unit := by rw [hst]; decide
  cases hb : (badDefault (structFields s)).isSome with
  | true =>
    have hex := hbad.1 hb
    have hsch : structSchema s = .error .nonDefaultAfterDefault := by
      unfold structSchema
      simp only [hnf, htr, hst]
      rw [hxyr] at hb ⊢
      simp only [hb, if_true]
    have hd : derive (.struct s) = .error .nonDefaultAfterDefault := by
      show deriveStruct s = _
      unfold deriveStruct
      simp only [hdoc, if_neg hne, hsch]
    exact ⟨⟨fun _ => hex, fun _ => hd⟩, ⟨fun ⟨i, h⟩ => (by rw [hd] at h; cases h), fun h => absurd hex h⟩⟩
  | false =>
    have hex : ¬ ∃ a f b g c, kept = a ++ f :: b ++ g :: c ∧ f.dflt = true ∧ g.dflt = false := by
      intro h; rw [hbad.2 h] at hb; cases hb
    have hsch : ∃ ps, structSchema s = .ok ps := by
      unfold structSchema
      simp only [hnf, htr, hst]
      rw [hxyr] at hb ⊢
      simp only [hb, Bool.false_eq_true, if_false]
      exact ⟨_, rfl⟩
    have htd : ∃ ps, structTypeDef s = .ok ps := by
      unfold structTypeDef
      simp only [hnf, htr, hst]
      rw [hxyr]
      exact ⟨_, rfl⟩
    obtain ⟨ps, hsch⟩ := hsch
    obtain ⟨qs, htd⟩ := htd
    have hd : ∃ impl, derive (.struct s) = .ok impl := by
      show ∃ impl, deriveStruct s = _
      unfold deriveStruct
      simp only [hdoc, if_neg hne, hsch, htd]
      cases s.from_.ty? <;> exact ⟨_, rfl⟩
    refine ⟨⟨fun h => ?_, fun h => absurd h hex⟩, ⟨fun _ => hex, fun _ => hd⟩⟩
    obtain ⟨i, hd⟩ := hd
    rw [hd] at h; cases h

example : derive (.struct (exTuple "T" [exField "" (.prim .u8), { exField "" (.prim .u8) with dflt := true },
    exField "" (.prim .bool)])) = .error .nonDefaultAfterDefault := rfl

example : ∃ impl, derive (.struct (exTuple "T" [exField "" (.prim .u8),
    { exField "" (.prim .u8) with dflt := true }])) = .ok impl := ⟨_, rfl⟩

/-! ## C12 -/

/-- C12 in full: in any type, wrappers make no difference. -/
def C12_statement : Prop :=
  ∀ P, Valid P → ∀ t, InScope P t → ∀ s, Returns P .schema t s ↔ Returns P .schema (strip t) s

/-- C12 is false of the code: `Vec<Box<Address>>` contains the schema of `Address`, `Vec<Address>` a
reference to it. -/
theorem C12_violated : ¬ C12_statement := by
  intro h
  have h1 : Returns exProgram .schema (.vec (.wrap .box (.named 1)))
      (lit "z.array(z.object({street: z.string()}))") := ⟨6, rfl⟩
  have h2 : Returns exProgram .schema (.vec (.named 1)) (lit "z.array(z.lazy(() => Ns.Address))") := ⟨3, rfl⟩
  have h3 := (h exProgram exProgram_valid (.vec (.wrap .box (.named 1)))
    (.vec (.wrap _ (.named (by decide)))) _).1 h1
  simp only [strip] at h3
  exact absurd (returns_unique h3 h2) (by decide)

/-- C12, partial (missing: wrappers around a derived type inside another type): a wrapper at the top makes
no difference, ... -/
theorem C12_top_partial (P : Program) (w : Wrapper) (t : Ty) (s : Str) :
    (Returns P .schema (.wrap w t) s ↔ Returns P .schema t s) ∧
    (Returns P .typeDef (.wrap w t) s ↔ Returns P .typeDef t s) :=
  ⟨returns_single rfl, returns_single rfl⟩

/-- ... nor do wrappers anywhere in the TypeScript type of a built-in type, ... -/
theorem C12_type_def_partial (P : Program) (t : Ty) (s : Str) :
    Returns P .typeDef t s ↔ Returns P .typeDef (strip t) s := strip_typeDef P t s

/-- ... nor in its schema, unless they stand around a derived type. -/
theorem C12_schema_partial (P : Program) (t : Ty) (h : NoWrappedRef t) (s : Str) :
    Returns P .schema t s ↔ Returns P .schema (strip t) s := strip_schema P h s

/-- C12, look-alike collections, without restriction: replacing `[T; N]`, `BTreeSet`, `BTreeMap` by `Vec`,
`HashSet`, `HashMap` everywhere in a type and in the whole program changes no text. -/
theorem C12_lookalikes (P : Program) (m : Method) (t : Ty) (s : Str) :
    Returns P m t s ↔ Returns (P.map (Decl.mapTy unshadow)) m (unshadow t) s :=
  ⟨fun ⟨_, h⟩ => unshadow_fwd h, fun ⟨_, h⟩ => unshadow_bwd h⟩

example : NoWrappedRef (.vec (.wrap .arc (.tuple [.prim .u8, .wrap .box (.named 1)]))) :=
  .vec rfl (.wrap _ (.tuple (by
    intro t ht
    simp at ht
    rcases ht with e | e <;> subst e
    · exact .prim _
    · exact .wrap _ (.named 1))))

example : Returns exProgram .schema (.btreeMap (.prim .string) (.array 3 (.named 1)))
    (lit "z.map(z.string(), z.array(z.lazy(() => Ns.Address)))") := ⟨6, rfl⟩

end Verif.Props
