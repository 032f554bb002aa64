import Verif.Zod.Sound
import Verif.Zod.Total

/-!
# When the schema does not exist
-/

namespace Verif.Zod
open Verif Verif.Js Verif.Schema Verif.Spec Verif.SchemaSpec

variable {g : Method → Ty → Option ZSchema}

theorem noBools_of {ts : List Ty} (h : ∀ t ∈ ts, noBool t = true) : noBool.noBools ts = true := by
  induction ts with
  | nil => rfl
  | cons a l ih =>
    rw [noBool.noBools, h a List.mem_cons_self, ih (fun t ht => h t (List.mem_cons_of_mem _ ht))]
    rfl

theorem All2.left_mem {α β : Type} {R : α → β → Prop} {l : List α} {r : List β} (h : All2 R l r) {a : α} (ha : a ∈ l) :
    ∃ b ∈ r, R a b := by
  induction h with
  | nil => cases ha
  | @cons x y _ _ h1 _ ih =>
    rcases List.mem_cons.1 ha with rfl | ha
    · exact ⟨y, List.mem_cons_self, h1⟩
    · obtain ⟨b, hb, h⟩ := ih ha
      exact ⟨b, List.mem_cons_of_mem _ hb, h⟩

/-- A type with a schema does not contain `bool`. -/
theorem noBool_of_zOf {P : Program} : ∀ (n : Nat) (m : Method) (t : Ty) (z : ZSchema), isZ m → zOf P n m t = some z →
    noBool t = true := by
  intro n
  induction n with
  | zero => intro m t z _ h; cases h
  | succ n ih =>
    intro m t z hm h
    have mp : ∀ {u : Ty} {f : ZSchema → ZSchema}, (zOf P n .inlineSchema u).map f = some z → noBool u = true := by
      intro u f h
      cases hu : zOf P n .inlineSchema u with
      | none => rw [hu] at h; cases h
      | some a => exact ih _ _ _ (Or.inr rfl) hu
    have two : ∀ {k v : Ty}, ((zOf P n .inlineSchema k).bind fun a => (zOf P n .inlineSchema v).bind fun b =>
        some (ZSchema.map a b)) = some z → (noBool k && noBool v) = true := by
      intro k v h
      cases hk : zOf P n .inlineSchema k with
      | none => rw [hk] at h; cases h
      | some a =>
        cases hv : zOf P n .inlineSchema v with
        | none => rw [hk, hv] at h; cases h
        | some b => rw [ih _ _ _ (Or.inr rfl) hk, ih _ _ _ (Or.inr rfl) hv]; rfl
    have h : zBody (zOf P n) P m t = some z := h
    cases t with
    | named i => rfl
    | prim p =>
      rcases hm with rfl | rfl
      · cases p <;> first | rfl | cases h
      · exact ih .schema _ _ (Or.inl rfl) h
    | wrap w u =>
      rcases hm with rfl | rfl
      · exact ih .schema u _ (Or.inl rfl) h
      · exact ih .schema _ _ (Or.inl rfl) h
    | option u =>
      rcases hm with rfl | rfl
      · exact mp (u := u) (f := .optional) h
      · exact ih .schema _ _ (Or.inl rfl) h
    | vec u =>
      rcases hm with rfl | rfl
      · exact mp (u := u) (f := .array) h
      · exact ih .schema _ _ (Or.inl rfl) h
    | hashSet u =>
      rcases hm with rfl | rfl
      · exact mp (u := u) (f := .set) h
      · exact ih .schema _ _ (Or.inl rfl) h
    | hashMap k v =>
      rcases hm with rfl | rfl
      · exact two h
      · exact ih .schema _ _ (Or.inl rfl) h
    | array l u =>
      rcases hm with rfl | rfl
      · exact ih .schema (.vec u) _ (Or.inl rfl) h
      · exact ih .schema _ _ (Or.inl rfl) h
    | btreeSet u =>
      rcases hm with rfl | rfl
      · exact ih .schema (.hashSet u) _ (Or.inl rfl) h
      · exact ih .schema _ _ (Or.inl rfl) h
    | btreeMap k v =>
      rcases hm with rfl | rfl
      · exact ih .schema (.hashMap k v) _ (Or.inl rfl) h
      · exact ih .schema _ _ (Or.inl rfl) h
    | tuple ts =>
      rcases hm with rfl | rfl
      · have h : (allSome (ts.map (zOf P n .schema))).map ZSchema.tuple = some z := h
        cases hl : allSome (ts.map (zOf P n .schema)) with
        | none => rw [hl] at h; cases h
        | some zs =>
          refine noBools_of fun t ht => ?_
          obtain ⟨a, _, ha⟩ := All2.left_mem (allSome_all2 hl) ht
          exact ih .schema t a (Or.inl rfl) ha
      · exact ih .schema _ _ (Or.inl rfl) h
    | result u e =>
      rcases hm with rfl | rfl
      · have one : ∀ (k : Str) (u : Ty) (a : ZSchema), objZ [(k, zOf P n .inlineSchema u)] = some a → noBool u = true := by
          intro k u a h
          obtain ⟨zs, _, _, h⟩ := objZ_some h
          obtain ⟨b, _, hb⟩ := All2.left_mem h List.mem_cons_self
          exact ih .inlineSchema u b (Or.inr rfl) hb
        have h : (match objZ [(lit "Ok", zOf P n .inlineSchema u)], objZ [(lit "Err", zOf P n .inlineSchema e)] with
          | some a, some b => some (ZSchema.union [a, b])
          | _, _ => none) = some z := h
        cases h1 : objZ [(lit "Ok", zOf P n .inlineSchema u)] with
        | none => rw [h1] at h; cases h
        | some a =>
          cases h2 : objZ [(lit "Err", zOf P n .inlineSchema e)] with
          | none => rw [h1, h2] at h; cases h
          | some b =>
            show (noBool u && noBool e) = true
            rw [one _ _ _ h1, one _ _ _ h2]
            rfl
      · exact ih .schema _ _ (Or.inl rfl) h

/-! ## Declarations -/

theorem optZ_some {b : Bool} {z : Option ZSchema} {a : ZSchema} (h : optZ b z = some a) : ∃ a, z = some a := by
  cases z with
  | none => cases b <;> cases h
  | some a => exact ⟨a, rfl⟩

theorem extendZ_some {x : Option ZSchema} {l : List (Option ZSchema)} {z : ZSchema} (h : extendZ x l = some z) :
    (∃ a, x = some a) ∧ ∀ y ∈ l, ∃ a, y = some a := by
  induction l generalizing x with
  | nil => exact ⟨⟨z, h⟩, by simp⟩
  | cons y l ih =>
    cases y with
    | none => cases h
    | some b =>
      obtain ⟨⟨a, ha⟩, hl⟩ := ih (x := x.map (fun _ => .broken)) h
      refine ⟨?_, ?_⟩
      · cases x with
        | none => cases ha
        | some c => exact ⟨c, rfl⟩
      · intro y hy
        rcases List.mem_cons.1 hy with rfl | hy
        · exact ⟨b, rfl⟩
        · exact hl y hy

/-- The fields of a struct that has a schema have one. -/
theorem struct_some {s : StructDecl} (hp : Plain (.struct s)) {z : ZSchema} (h : structZ g s = some z) :
    ∀ t ∈ fieldTypes s.fields, ∃ a, g .inlineSchema t = some a := by
  intro t ht
  obtain ⟨f, hf, rfl⟩ := List.mem_map.1 ht
  have hf1 := List.mem_filter.1 hf
  have hsk : f.skipDe = false := by simpa using hf1.2
  have hmem : SField.ofField s.transparent f ∈ structFields s := List.mem_map.2 ⟨f, hf, rfl⟩
  suffices hs : ∃ a, sfieldZ g (SField.ofField s.transparent f) = some a by
    obtain ⟨a, ha⟩ := hs
    exact optZ_some ha
  unfold structZ at h
  simp only at h
  have hpl : s.transparent = true ∨ s.style = .tuple → SField.ofField s.transparent f ∈
      (structFields s).filter (fun f => !f.flatten) := fun hts =>
    List.mem_filter.2 ⟨hmem, by simp [SField.ofField, hp.1 hts f hf1.1 hsk]⟩
  cases htr : s.transparent with
  | true =>
    obtain ⟨f0, hf0⟩ := hp.2 htr
    have hpl := hpl (Or.inl htr)
    rw [htr] at h hpl
    simp only at h
    have hall : structFields s = [SField.ofField true f0] := by unfold structFields; rw [hf0, htr]; rfl
    have hf : f = f0 := by
      have : f ∈ s.fields.filter (fun f => !f.skipDe) := hf
      rw [hf0, List.mem_singleton] at this
      exact this
    rw [hall, ← hf] at hpl h
    have hq : [SField.ofField true f].filter (fun f => !f.flatten) = [SField.ofField true f] :=
      List.filter_cons_of_pos (p := fun f : SField => !f.flatten) (List.mem_filter.1 hpl).2
    rw [hq] at h
    exact ⟨z, h⟩
  | false =>
    rw [htr] at h hpl hmem
    cases hst : s.style with
    | unit => rw [hst] at h; cases h
    | tuple =>
      rw [hst] at h
      have hpl := hpl (Or.inr hst)
      simp only at h
      generalize (structFields s).filter (fun f => !f.flatten) = fields at h hpl
      match fields, h, hpl with
      | [x], h, hpl => rw [List.mem_singleton] at hpl; subst hpl; exact ⟨z, h⟩
      | a :: b :: r, h, hpl =>
        simp only at h
        cases hl : allSome ((a :: b :: r).map (sfieldZ g)) with
        | none => rw [hl] at h; cases h
        | some zs =>
          obtain ⟨y, _, hy⟩ := All2.left_mem (allSome_all2 hl) hpl
          exact ⟨y, hy⟩
    | named =>
      rw [hst] at h
      simp only at h
      obtain ⟨⟨a, ha⟩, hl⟩ := extendZ_some h
      cases hfl : f.flatten with
      | true =>
        exact hl _ (List.mem_map.2 ⟨_, List.mem_filter.2 ⟨hmem, hfl⟩, rfl⟩)
      | false =>
        obtain ⟨zs, _, _, ho⟩ := objZ_some ha
        obtain ⟨b, _, hb⟩ := All2.left_mem ho (List.mem_map.2 ⟨_, List.mem_filter.2 ⟨hmem, by simp [SField.ofField, hfl]⟩, rfl⟩)
        exact ⟨b, hb⟩

theorem tupleFields_some {fs : List Field} {z : ZSchema} (h : tupleFieldsZ g fs = some z) :
    ∀ f ∈ fs, ∃ a, vfieldZ g f = some a := by
  have gen : ∀ fs : List Field, ∀ z, (allSome (fs.map (vfieldZ g))).map ZSchema.tuple = some z →
      ∀ f ∈ fs, ∃ a, vfieldZ g f = some a := by
    intro fs z h f hf
    cases hl : allSome (fs.map (vfieldZ g)) with
    | none => rw [hl] at h; cases h
    | some zs =>
      obtain ⟨y, _, hy⟩ := All2.left_mem (allSome_all2 hl) hf
      exact ⟨y, hy⟩
  match fs, h with
  | [], h => intro f hf; cases hf
  | [x], h => intro f hf; rw [List.mem_singleton] at hf; subst hf; exact ⟨z, h⟩
  | a :: b :: r, h => exact gen _ _ h

theorem obj_part {l : List (Str × Option ZSchema)} {z : ZSchema} (h : objZ l = some z) {k : Str} {x : Option ZSchema}
    (hm : (k, x) ∈ l) : ∃ a, x = some a := by
  obtain ⟨zs, _, _, ho⟩ := objZ_some h
  obtain ⟨b, _, hb⟩ := All2.left_mem ho hm
  exact ⟨b, hb⟩

/-- The fields of a variant that has a schema have one. -/
theorem variant_some {tag : Tag} {v : Variant} (hu : v.style = .unit → v.fields = []) {z : ZSchema}
    (h : variantZ g tag v = some z) : ∀ t ∈ fieldTypes v.fields, ∃ a, g .inlineSchema t = some a := by
  intro t ht
  obtain ⟨f, hf, rfl⟩ := List.mem_map.1 ht
  have hf : f ∈ v.kept := hf
  suffices hs : ∃ a, vfieldZ g f = some a by
    obtain ⟨a, ha⟩ := hs
    exact optZ_some ha
  unfold variantZ at h
  cases hst : v.style with
  | unit => unfold Variant.kept at hf; rw [hu hst] at hf; cases hf
  | tuple =>
    rw [hst] at h
    simp only [tupleVariantZ] at h
    match hk : v.kept, h with
    | [], _ => rw [hk] at hf; cases hf
    | a :: b, h =>
      rw [hk] at hf
      have fin : (∃ z, tupleFieldsZ g (a :: b) = some z) → ∃ a, vfieldZ g f = some a := by
        rintro ⟨z, hz⟩
        exact tupleFields_some hz f hf
      cases tag with
      | external => exact fin (obj_part h (List.mem_singleton.2 rfl))
      | internal t => exact fin (obj_part h (List.mem_singleton.2 rfl))
      | adjacent t c => exact fin (obj_part h (List.mem_cons_of_mem _ (List.mem_singleton.2 rfl)))
      | untagged => exact fin ⟨z, h⟩
  | named =>
    rw [hst] at h
    simp only [structVariantZ] at h
    have hm : (f.name, vfieldZ g f) ∈ v.kept.map (fun f => (f.name, vfieldZ g f)) := List.mem_map.2 ⟨f, hf, rfl⟩
    cases tag with
    | external =>
      obtain ⟨a, ha⟩ := obj_part h (List.mem_singleton.2 rfl)
      exact obj_part ha hm
    | internal t => exact obj_part h (List.mem_cons_of_mem _ hm)
    | adjacent t c =>
      obtain ⟨a, ha⟩ := obj_part h (List.mem_cons_of_mem _ (List.mem_singleton.2 rfl))
      exact obj_part ha hm
    | untagged => exact obj_part h hm

theorem discOptions_some {t : Str} {zs : List ZSchema} {os : List (Str × ZSchema)} (h : discOptions t zs = some os) :
    All2 (fun z p => discriminator t z = some p.1) zs os ∧ (os.map (·.1)).Nodup := by
  induction zs generalizing os with
  | nil => cases h; exact ⟨.nil, by simp⟩
  | cons z zs ih =>
    rw [discOptions] at h
    cases hd : discriminator t z with
    | none => rw [hd] at h; cases h
    | some s =>
      cases hr : discOptions t zs with
      | none => rw [hd, hr] at h; cases h
      | some l =>
        rw [hd, hr] at h
        simp only at h
        split at h
        · cases h
        · rename_i hany
          injection h with h
          subst h
          obtain ⟨h1, h2⟩ := ih hr
          refine ⟨.cons hd h1, ?_⟩
          rw [List.map_cons, List.nodup_cons]
          refine ⟨fun hm => hany ?_, h2⟩
          obtain ⟨p, hp, he⟩ := List.mem_map.1 hm
          exact List.any_eq_true.2 ⟨p, hp, by simp [he]⟩

theorem all2_disc {t : Str} {vs : List Variant} {zs : List ZSchema} {os : List (Str × ZSchema)}
    (h1 : All2 (fun v z => discriminator t z = some v.name) vs zs)
    (h2 : All2 (fun z (p : Str × ZSchema) => discriminator t z = some p.1) zs os) : vs.map (·.name) = os.map (·.1) := by
  induction h1 generalizing os with
  | nil => cases h2; rfl
  | cons h _ ih =>
    cases h2 with
    | cons h' h2 =>
      rw [h] at h'
      injection h' with h'
      rw [List.map_cons, List.map_cons, ih h2, h']

/-- A tuple variant with a payload has no discriminator. -/
theorem tuple_no_disc {t : Str} {v : Variant} (hst : v.style = .tuple) (hne : v.kept ≠ []) (hn : v.name ≠ t) {z : ZSchema}
    (h : variantZ g (.internal t) v = some z) : discriminator t z = none := by
  unfold variantZ at h
  rw [hst] at h
  simp only [tupleVariantZ] at h
  match hk : v.kept, h with
  | [], _ => exact absurd hk hne
  | a :: b, h =>
    obtain ⟨zs, rfl, _, ho⟩ := objZ_some h
    cases ho with
    | cons _ ho =>
      cases ho
      simp [discriminator, hn]

/-- An enum that has a schema. -/
theorem enum_some {e : EnumDecl} (hpl : Plain (.enum e)) (htn : TagIsNoVariant (.enum e)) {z : ZSchema}
    (h : enumZ g e = some z) (hf : e.from_.ty? = none) :
    (∀ v ∈ e.kept, ∀ t ∈ fieldTypes v.fields, ∃ a, g .inlineSchema t = some a) ∧ Discriminated e := by
  have hmem : ∀ v ∈ e.kept, v ∈ e.variants ∧ v.skipDe = false := by
    intro v hv
    have := List.mem_filter.1 hv
    exact ⟨this.1, by simpa using this.2⟩
  have hu : ∀ v ∈ e.kept, v.style = .unit → v.fields = [] := fun v hv => hpl v (hmem v hv).1
  have ofAll : ∀ zs, allSome (e.kept.map (variantZ g e.tag)) = some zs →
      ∀ v ∈ e.kept, ∀ t ∈ fieldTypes v.fields, ∃ a, g .inlineSchema t = some a := by
    intro zs hzs v hv
    obtain ⟨y, _, hy⟩ := All2.left_mem (allSome_all2 hzs) hv
    exact variant_some (hu v hv) hy
  have ofDisc : ∀ t, (e.tag = .internal t ∨ ∃ c, e.tag = .adjacent t c) → discZ t (e.kept.map (variantZ g e.tag)) = some z →
      (∀ v ∈ e.kept, ∀ t ∈ fieldTypes v.fields, ∃ a, g .inlineSchema t = some a) ∧ Discriminated e := by
    intro t ht h
    unfold discZ at h
    cases hl : allSome (e.kept.map (variantZ g e.tag)) with
    | none => rw [hl] at h; cases h
    | some zs =>
      rw [hl] at h
      refine ⟨ofAll zs hl, ?_⟩
      cases ho : discOptions t zs with
      | none => simp only [ho] at h; cases h
      | some os =>
        obtain ⟨h1, h2⟩ := discOptions_some ho
        have h3 := allSome_all2 hl
        have hpay : e.tag = .internal t → ∀ v ∈ e.kept, v.style = .tuple → v.kept = [] := by
          intro htag v hv hst
          refine Classical.byContradiction fun hne => ?_
          obtain ⟨y, hy, hz⟩ := All2.left_mem h3 hv
          rw [htag] at hz
          have hno := tuple_no_disc hst hne (htn e t rfl htag v (hmem v hv).1) hz
          obtain ⟨p, _, hp⟩ := All2.left_mem h1 hy
          rw [hno] at hp
          cases hp
        have h4 : All2 (fun v z => discriminator t z = some v.name) e.kept zs := by
          refine All2.imp_mem h3 ?_
          intro v hv z hz
          refine variant_disc ht ?_ hz
          rintro ⟨t', ht'⟩ hst
          rcases ht with h | ⟨c, h⟩
          · exact hpay h v hv hst
          · rw [h] at ht'; cases ht'
        have hdv : DistinctVariants e := by
          show (e.kept.map (·.name)).Nodup
          rw [all2_disc h4 h1]
          exact h2
        intro _ _
        rcases ht with ht | ⟨c, ht⟩ <;> rw [ht]
        · refine ⟨fun v hv hsk hst => ?_, hdv⟩
          have := hpay ht v (List.mem_filter.2 ⟨hv, by simp [hsk]⟩) hst
          show v.kept.map (·.ty) = []
          rw [this]
          rfl
        · exact hdv
  unfold enumZ at h
  match hk : e.kept, h with
  | [], h => cases h
  | [v], h =>
    rw [← hk]
    refine ⟨?_, fun _ hl => ?_⟩
    · intro w hw
      rw [hk, List.mem_singleton] at hw
      subst hw
      exact variant_some (hu w (by rw [hk]; exact List.mem_singleton.2 rfl)) h
    · have : 2 ≤ e.kept.length := hl
      rw [hk] at this
      simp at this
  | a :: b :: r, h =>
    simp only at h
    rw [← hk] at h ⊢
    cases htag : e.tag with
    | external =>
      rw [htag] at h
      simp only at h
      cases hl : allSome (e.kept.map (variantZ g .external)) with
      | none => rw [hl] at h; cases h
      | some zs =>
        exact ⟨ofAll zs (by rw [htag]; exact hl), fun _ _ => by rw [htag]; trivial⟩
    | untagged =>
      rw [htag] at h
      simp only at h
      cases hl : allSome (e.kept.map (variantZ g .untagged)) with
      | none => rw [hl] at h; cases h
      | some zs =>
        exact ⟨ofAll zs (by rw [htag]; exact hl), fun _ _ => by rw [htag]; trivial⟩
    | internal t =>
      refine ofDisc t (Or.inl htag) ?_
      rw [htag] at h ⊢
      exact h
    | adjacent t c =>
      refine ofDisc t (Or.inr ⟨c, htag⟩) ?_
      rw [htag] at h ⊢
      exact h

/-- A declaration that has a schema. -/
theorem decl_some {P : Program} {n : Nat} {i : Nat} {d : Decl} (hd : P[i]? = some d) (hpl : Plain d)
    (htn : TagIsNoVariant d) {z : ZSchema} (h : zOf P n .schema (.named i) = some z) : Constructs d := by
  cases n with
  | zero => cases h
  | succ n =>
    have h : zBody (zOf P n) P .schema (.named i) = some z := h
    rw [zBody_named P _ i hd] at h
    cases d with
    | struct s =>
      refine ⟨?_, fun e he => by cases he⟩
      simp only [declZ] at h
      cases hf : s.from_.ty? with
      | some u =>
        rw [hf] at h
        simp only [schemaTypes, hf, List.mem_singleton, forall_eq]
        exact noBool_of_zOf n .inlineSchema u z (Or.inr rfl) h
      | none =>
        rw [hf] at h
        simp only [schemaTypes, hf]
        intro t ht
        obtain ⟨a, ha⟩ := struct_some hpl h t ht
        exact noBool_of_zOf n .inlineSchema t a (Or.inr rfl) ha
    | enum e =>
      simp only [declZ] at h
      cases hf : e.from_.ty? with
      | some u =>
        rw [hf] at h
        refine ⟨?_, ?_⟩
        · simp only [schemaTypes, hf, List.mem_singleton, forall_eq]
          exact noBool_of_zOf n .schema u z (Or.inl rfl) h
        · rintro e' he hf'
          cases he
          rw [hf] at hf'
          cases hf'
      | none =>
        rw [hf] at h
        obtain ⟨h1, h2⟩ := enum_some hpl htn h hf
        refine ⟨?_, by rintro e' he; cases he; exact h2⟩
        simp only [schemaTypes, hf]
        intro t ht
        obtain ⟨l, hl, ht⟩ := List.mem_flatten.1 ht
        obtain ⟨v, hv, rfl⟩ := List.mem_map.1 hl
        obtain ⟨a, ha⟩ := h1 v hv t ht
        exact noBool_of_zOf n .inlineSchema t a (Or.inr rfl) ha

end Verif.Zod
