import Verif.Zod.Unwrap

/-!
# Declarations with related types have related schemas (proof helper)
-/

namespace Verif.Zod
open Verif Verif.Js Verif.Schema Verif.Spec Verif.SchemaSpec

/-- A relation that holds of schemas that are built in the same way from related schemas. -/
class Closed (S : ZSchema → ZSchema → Prop) : Prop where
  cong : ∀ z z', Cong S z z' → S z z'
  disc : ∀ {t : Str} {z z' : ZSchema} {s s' : Str}, S z z' → discriminator t z = some s → discriminator t z' = some s' → s = s'

variable {S : ZSchema → ZSchema → Prop} [Closed S]

theorem objZ_rel {α : Type} {k : α → Str} {f g : α → Option ZSchema} (l : List α) {z z' : ZSchema}
    (h : ∀ a ∈ l, ∀ z z', f a = some z → g a = some z' → S z z')
    (hz : objZ (l.map (fun a => (k a, f a))) = some z) (hz' : objZ (l.map (fun a => (k a, g a))) = some z') : S z z' := by
  obtain ⟨zs, h1, rfl⟩ := objZ_eq hz
  obtain ⟨zs', h1', rfl⟩ := objZ_eq hz'
  rw [List.map_map] at h1 h1'
  obtain ⟨ps, rfl, rfl, e, hp⟩ := allSome_pairs l h h1 h1'
  rw [List.map_map, List.map_map]
  have := zip_keys (ks := l.map k) (ps := ps) (by rw [List.length_map, e])
  show S (.object ((l.map k).zip _)) (.object ((l.map k).zip _))
  rw [this.1, this.2]
  exact Closed.cong _ _ (.object _ (fun p hp' => hp p.2 (List.of_mem_zip hp').2))

theorem optZ_rel {b : Bool} {x y : Option ZSchema} {z z' : ZSchema}
    (h : ∀ z z', x = some z → y = some z' → S z z') (hz : optZ b x = some z) (hz' : optZ b y = some z') : S z z' := by
  cases b with
  | false => exact h z z' hz hz'
  | true =>
    cases x with
    | none => cases hz
    | some a => cases y with
      | none => cases hz'
      | some b => cases hz; cases hz'; exact Closed.cong _ _ (.optional (h a b rfl rfl))

theorem discOptions_rel {t : Str} : ∀ (ps : List (ZSchema × ZSchema)) {l l' : List (Str × ZSchema)},
    (∀ p ∈ ps, S p.1 p.2) → discOptions t (ps.map (·.1)) = some l → discOptions t (ps.map (·.2)) = some l' →
    ∃ ts : List (Str × ZSchema × ZSchema), l = ts.map (fun p => (p.1, p.2.1)) ∧ l' = ts.map (fun p => (p.1, p.2.2)) ∧
      ∀ p ∈ ts, S p.2.1 p.2.2
  | [], l, l', _, h, h' => by
    cases h; cases h'
    exact ⟨[], rfl, rfl, fun p hp => by cases hp⟩
  | p :: ps, l, l', hp, h, h' => by
    simp only [List.map_cons, discOptions] at h h'
    cases h1 : discriminator t p.1 with
    | none => rw [h1] at h; cases h
    | some s =>
      cases h2 : discOptions t (ps.map (·.1)) with
      | none => rw [h1, h2] at h; cases h
      | some m =>
        cases h3 : discriminator t p.2 with
        | none => rw [h3] at h'; cases h'
        | some s' =>
          cases h4 : discOptions t (ps.map (·.2)) with
          | none => rw [h3, h4] at h'; cases h'
          | some m' =>
            rw [h1, h2] at h; rw [h3, h4] at h'
            obtain ⟨ts, rfl, rfl, ht⟩ := discOptions_rel ps (fun q hq => hp q (List.mem_cons_of_mem _ hq)) h2 h4
            have e := Closed.disc (hp p List.mem_cons_self) h1 h3
            subst e
            simp only at h h'
            split at h
            · cases h
            · split at h'
              · cases h'
              · cases h; cases h'
                refine ⟨(s, p.1, p.2) :: ts, rfl, rfl, fun q hq => ?_⟩
                rcases List.mem_cons.1 hq with rfl | hq
                · exact hp p List.mem_cons_self
                · exact ht q hq

section
variable {rec rec' : Method → Ty → Option ZSchema} {f : Ty → Ty}

/-- The schemas of a type and of the changed type are alike. -/
def AlikeR (S : ZSchema → ZSchema → Prop) (f : Ty → Ty) (rec rec' : Method → Ty → Option ZSchema) : Prop :=
  ∀ m t z z', rec m t = some z → rec' m (f t) = some z' → S z z'

theorem sfield_rel (H : AlikeR S f rec rec') (x : SField) {z z' : ZSchema} (hz : sfieldZ rec x = some z)
    (hz' : sfieldZ rec' (SField.mapTy f x) = some z') : S z z' :=
  optZ_rel (fun z z' h h' => H _ _ z z' h h') hz hz'

theorem vfield_rel (H : AlikeR S f rec rec') (x : Field) {z z' : ZSchema} (hz : vfieldZ rec x = some z)
    (hz' : vfieldZ rec' (Field.mapTy f x) = some z') : S z z' :=
  optZ_rel (fun z z' h h' => H _ _ z z' h h') hz hz'

theorem struct_rel (H : AlikeR S f rec rec') (s : StructDecl) {z z' : ZSchema} (hz : structZ rec s = some z)
    (hz' : structZ rec' (StructDecl.mapTy f s) = some z') : S z z' := by
  unfold structZ at hz hz'
  rw [structFields_mapTy, filter_mapTyS f (·.flatten) (fun _ => rfl), filter_mapTyS f (fun x => !x.flatten) (fun _ => rfl)] at hz'
  simp only at hz hz'
  generalize (structFields s).filter (·.flatten) = flat at hz hz'
  generalize (structFields s).filter (fun x => !x.flatten) = fields at hz hz'
  rw [show (StructDecl.mapTy f s).transparent = s.transparent from rfl, show (StructDecl.mapTy f s).style = s.style from rfl] at hz'
  cases ht : s.transparent with
  | true =>
    rw [ht] at hz hz'
    cases fields with
    | nil => cases hz
    | cons x r => exact sfield_rel H x hz hz'
  | false =>
    rw [ht] at hz hz'
    cases hs : s.style with
    | unit => rw [hs] at hz; cases hz
    | tuple =>
      rw [hs] at hz hz'
      match fields, hz, hz' with
      | [], hz, _ => cases hz
      | [x], hz, hz' => exact sfield_rel H x hz hz'
      | x :: y :: r, hz, hz' =>
        simp only [List.map_cons] at hz hz'
        have hz : (allSome ((x :: y :: r).map (sfieldZ rec))).map ZSchema.tuple = some z := hz
        have hz' : (allSome ((x :: y :: r).map (sfieldZ rec' ∘ SField.mapTy f))).map ZSchema.tuple = some z' := by
          rw [← hz', ← List.map_map]; rfl
        cases h1 : allSome ((x :: y :: r).map (sfieldZ rec)) with
        | none => rw [h1] at hz; cases hz
        | some zs =>
          cases h2 : allSome ((x :: y :: r).map (sfieldZ rec' ∘ SField.mapTy f)) with
          | none => rw [h2] at hz'; cases hz'
          | some zs' =>
            rw [h1] at hz; rw [h2] at hz'
            cases hz; cases hz'
            obtain ⟨ps, rfl, rfl, _, hp⟩ := allSome_pairs _ (fun a _ z z' h h' => sfield_rel H a h h') h1 h2
            exact Closed.cong _ _ (.tuple ps hp)
    | named =>
      rw [hs] at hz hz'
      simp only at hz hz'
      rcases extendZ_result hz with ⟨e, h⟩ | ⟨e, rfl⟩
      · rcases extendZ_result hz' with ⟨_, h'⟩ | ⟨e', _⟩
        · rw [List.map_map] at h'
          exact objZ_rel (k := fun x : SField => x.name.getD []) fields (fun a _ z z' h h' => sfield_rel H a h h') h h'
        · rw [List.map_map] at e'
          have : flat = [] := List.map_eq_nil_iff.1 e
          subst this
          exact absurd rfl e'
      · rcases extendZ_result hz' with ⟨e', _⟩ | ⟨_, rfl⟩
        · rw [List.map_map] at e'
          have : flat = [] := List.map_eq_nil_iff.1 e'
          subst this
          exact absurd rfl e
        · exact Closed.cong _ _ (.broken)

theorem unit_rel (tag : Tag) (n : Str) {z z' : ZSchema} (hz : unitZ tag n = some z) (hz' : unitZ tag n = some z') :
    S z z' := by
  have one : ∀ t : Str, objZ [(t, some (ZSchema.literal n))] = some z → objZ [(t, some (.literal n))] = some z' → S z z' := by
    intro t h h'
    refine objZ_rel (k := fun _ : Unit => t) (f := fun _ => some (.literal n)) (g := fun _ => some (.literal n)) [()] ?_ h h'
    intro _ _ z z' h h'
    cases h; cases h'; exact Closed.cong _ _ (.literal n)
  cases tag with
  | external => cases hz; cases hz'; exact Closed.cong _ _ (.literal n)
  | internal t => exact one t hz hz'
  | adjacent t c => exact one t hz hz'
  | untagged => cases hz; cases hz'; exact Closed.cong _ _ (.null)

theorem objZ_one_rel {k : Str} {a b : Option ZSchema} {z z' : ZSchema} (h : ∀ z z', a = some z → b = some z' → S z z')
    (hz : objZ [(k, a)] = some z) (hz' : objZ [(k, b)] = some z') : S z z' :=
  objZ_rel (k := fun _ : Unit => k) (f := fun _ => a) (g := fun _ => b) [()] (fun _ _ z z' h1 h2 => h z z' h1 h2) hz hz'

theorem objZ_more_rel {k l : Str} {α : Type} {kk : α → Str} {fa fb : α → Option ZSchema} (as : List α) {z z' : ZSchema}
    (h : ∀ a ∈ as, ∀ z z', fa a = some z → fb a = some z' → S z z')
    (hz : objZ ((k, some (.literal l)) :: as.map (fun a => (kk a, fa a))) = some z)
    (hz' : objZ ((k, some (.literal l)) :: as.map (fun a => (kk a, fb a))) = some z') : S z z' := by
  refine objZ_rel (k := fun o : Option α => (o.map kk).getD k) (f := fun o => match o with | none => some (.literal l) | some a => fa a)
    (g := fun o => match o with | none => some (.literal l) | some a => fb a) (none :: as.map some) ?_ ?_ ?_
  · intro o ho z z' h1 h2
    cases o with
    | none => cases h1; cases h2; exact Closed.cong _ _ (.literal l)
    | some a =>
      refine h a ?_ z z' h1 h2
      simpa using ho
  · rw [List.map_cons, List.map_map]; exact hz
  · rw [List.map_cons, List.map_map]; exact hz'

theorem tupleFields_rel (H : AlikeR S f rec rec') (fs : List Field) {z z' : ZSchema} (hz : tupleFieldsZ rec fs = some z)
    (hz' : tupleFieldsZ rec' (fs.map (Field.mapTy f)) = some z') : S z z' := by
  have many : ∀ l : List Field, (allSome (l.map (vfieldZ rec))).map ZSchema.tuple = some z →
      (allSome (l.map (vfieldZ rec' ∘ Field.mapTy f))).map ZSchema.tuple = some z' → S z z' := by
    intro l hz hz'
    cases h1 : allSome (l.map (vfieldZ rec)) with
    | none => rw [h1] at hz; cases hz
    | some zs =>
      cases h2 : allSome (l.map (vfieldZ rec' ∘ Field.mapTy f)) with
      | none => rw [h2] at hz'; cases hz'
      | some zs' =>
        rw [h1] at hz; rw [h2] at hz'
        cases hz; cases hz'
        obtain ⟨ps, rfl, rfl, _, hp⟩ := allSome_pairs _ (fun a _ z z' h h' => vfield_rel H a h h') h1 h2
        exact Closed.cong _ _ (.tuple ps hp)
  match fs, hz, hz' with
  | [], hz, hz' => exact many [] hz hz'
  | [x], hz, hz' => exact vfield_rel H x hz hz'
  | x :: y :: r, hz, hz' =>
    refine many (x :: y :: r) hz ?_
    rw [← List.map_map]
    exact hz'

theorem variant_rel (H : AlikeR S f rec rec') (tag : Tag) (v : Variant) {z z' : ZSchema} (hz : variantZ rec tag v = some z)
    (hz' : variantZ rec' tag (Variant.mapTy f v) = some z') : S z z' := by
  unfold variantZ at hz hz'
  rw [show (Variant.mapTy f v).style = v.style from rfl, show (Variant.mapTy f v).name = v.name from rfl] at hz'
  cases hs : v.style with
  | unit => rw [hs] at hz hz'; exact unit_rel tag v.name hz hz'
  | named =>
    rw [hs] at hz hz'
    simp only [structVariantZ] at hz hz'
    rw [kept_mapTy, show (Variant.mapTy f v).name = v.name from rfl, List.map_map] at hz'
    have hobj : ∀ z z', objZ (v.kept.map (fun f => (f.name, vfieldZ rec f))) = some z →
        objZ (v.kept.map ((fun f => (f.name, vfieldZ rec' f)) ∘ Field.mapTy f)) = some z' → S z z' := by
      intro z z' h h'
      exact objZ_rel (k := fun f : Field => f.name) v.kept (fun a _ z z' h h' => vfield_rel H a h h') h h'
    cases tag with
    | external => exact objZ_one_rel hobj hz hz'
    | internal t =>
      exact objZ_more_rel (kk := fun f : Field => f.name) v.kept (fun a _ z z' h h' => vfield_rel H a h h') hz hz'
    | adjacent t c =>
      exact objZ_more_rel (kk := fun _ : Unit => c) (fa := fun _ => objZ (v.kept.map (fun f => (f.name, vfieldZ rec f))))
        (fb := fun _ => objZ (v.kept.map ((fun f => (f.name, vfieldZ rec' f)) ∘ Field.mapTy f))) [()]
        (fun _ _ z z' h h' => hobj z z' h h') hz hz'
    | untagged => exact hobj z z' hz hz'
  | tuple =>
    rw [hs] at hz hz'
    simp only [tupleVariantZ] at hz hz'
    rw [kept_mapTy, show (Variant.mapTy f v).name = v.name from rfl] at hz'
    cases hk : v.kept with
    | nil => rw [hk] at hz hz'; exact unit_rel tag v.name hz hz'
    | cons x r =>
      rw [hk] at hz hz'
      have hin : ∀ z z', tupleFieldsZ rec (x :: r) = some z → tupleFieldsZ rec' ((x :: r).map (Field.mapTy f)) = some z' →
          S z z' := fun z z' h h' => tupleFields_rel H (x :: r) h h'
      cases tag with
      | external => exact objZ_one_rel hin hz hz'
      | internal t => exact objZ_one_rel hin hz hz'
      | adjacent t c =>
        exact objZ_more_rel (kk := fun _ : Unit => c) (fa := fun _ => tupleFieldsZ rec (x :: r))
          (fb := fun _ => tupleFieldsZ rec' ((x :: r).map (Field.mapTy f))) [()] (fun _ _ z z' h h' => hin z z' h h') hz hz'
      | untagged => exact hin z z' hz hz'

theorem enum_rel (H : AlikeR S f rec rec') (e : EnumDecl) {z z' : ZSchema} (hz : enumZ rec e = some z)
    (hz' : enumZ rec' (EnumDecl.mapTyZ f e) = some z') : S z z' := by
  unfold enumZ at hz hz'
  rw [enum_kept, show (EnumDecl.mapTyZ f e).tag = e.tag from rfl] at hz'
  have pairs : ∀ l : List Variant, ∀ zs zs', allSome (l.map (variantZ rec e.tag)) = some zs →
      allSome (l.map (variantZ rec' e.tag ∘ Variant.mapTy f)) = some zs' →
      ∃ ps : List (ZSchema × ZSchema), zs = ps.map (·.1) ∧ zs' = ps.map (·.2) ∧ ps.length = l.length ∧ ∀ p ∈ ps, S p.1 p.2 :=
    fun l zs zs' h1 h2 => allSome_pairs _ (fun a _ z z' h h' => variant_rel H e.tag a h h') h1 h2
  have hu : ∀ l : List Variant, (allSome (l.map (variantZ rec e.tag))).map ZSchema.union = some z →
      (allSome (l.map (variantZ rec' e.tag ∘ Variant.mapTy f))).map ZSchema.union = some z' → S z z' := by
    intro l h h'
    cases h1 : allSome (l.map (variantZ rec e.tag)) with
    | none => rw [h1] at h; cases h
    | some zs =>
      cases h2 : allSome (l.map (variantZ rec' e.tag ∘ Variant.mapTy f)) with
      | none => rw [h2] at h'; cases h'
      | some zs' =>
        rw [h1] at h; rw [h2] at h'
        cases h; cases h'
        obtain ⟨ps, rfl, rfl, _, hp⟩ := pairs l _ _ h1 h2
        exact Closed.cong _ _ (.union ps hp)
  have hd : ∀ (t : Str) (l : List Variant), discZ t (l.map (variantZ rec e.tag)) = some z →
      discZ t (l.map (variantZ rec' e.tag ∘ Variant.mapTy f)) = some z' → S z z' := by
    intro t l h h'
    unfold discZ at h h'
    cases h1 : allSome (l.map (variantZ rec e.tag)) with
    | none => rw [h1] at h; cases h
    | some zs =>
      cases h2 : allSome (l.map (variantZ rec' e.tag ∘ Variant.mapTy f)) with
      | none => rw [h2] at h'; cases h'
      | some zs' =>
        rw [h1] at h; rw [h2] at h'
        obtain ⟨ps, rfl, rfl, _, hp⟩ := pairs l _ _ h1 h2
        simp only at h h'
        cases h3 : discOptions t (ps.map (·.1)) with
        | none => rw [h3] at h; cases h
        | some o =>
          cases h4 : discOptions t (ps.map (·.2)) with
          | none => rw [h4] at h'; cases h'
          | some o' =>
            rw [h3] at h; rw [h4] at h'
            cases h; cases h'
            obtain ⟨ts, rfl, rfl, ht⟩ := discOptions_rel ps hp h3 h4
            exact Closed.cong _ _ (.disc t ts ht)
  match hk : e.kept, hz, hz' with
  | [], hz, _ => cases hz
  | [v], hz, hz' => exact variant_rel H e.tag v hz hz'
  | v :: w :: r, hz, hz' =>
    simp only [List.map_cons] at hz hz'
    have e1 : ∀ g : Variant → Option ZSchema, g (Variant.mapTy f v) :: g (Variant.mapTy f w) :: (r.map (Variant.mapTy f)).map g =
        (v :: w :: r).map (g ∘ Variant.mapTy f) := by intro g; simp
    rw [e1] at hz'
    cases ht : e.tag with
    | external => rw [ht] at hz hz' hu; exact hu (v :: w :: r) hz hz'
    | untagged => rw [ht] at hz hz' hu; exact hu (v :: w :: r) hz hz'
    | internal t => rw [ht] at hz hz' hd; exact hd t (v :: w :: r) hz hz'
    | adjacent t c => rw [ht] at hz hz' hd; exact hd t (v :: w :: r) hz hz'

end

end Verif.Zod
