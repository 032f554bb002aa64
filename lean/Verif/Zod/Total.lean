import Verif.Zod.Bridge
import Verif.Spec.Throws
import Verif.Schema.Steps

/-!
# When the schema exists
-/

namespace Verif.Zod
open Verif Verif.Js Verif.Schema Verif.Spec Verif.SchemaSpec

variable {g : Method → Ty → Option ZSchema}

theorem allSome_total {α β : Type} {f : α → Option β} {l : List α} (h : ∀ a ∈ l, ∃ b, f a = some b) :
    ∃ r, allSome (l.map f) = some r := by
  induction l with
  | nil => exact ⟨[], rfl⟩
  | cons a l ih =>
    obtain ⟨b, hb⟩ := h a List.mem_cons_self
    obtain ⟨r, hr⟩ := ih (fun x hx => h x (List.mem_cons_of_mem _ hx))
    exact ⟨b :: r, by simp [allSome, hb, hr]⟩

theorem distinct_iff (l : List Str) : distinct l = true ↔ l.Nodup := by
  induction l with
  | nil => simp [distinct]
  | cons a l ih => simp [distinct, ih]

theorem goodKeys_cond {ks : List Str} (h : goodKeys ks) :
    (distinct ks && !ks.contains (lit "__proto__")) = true := by
  rw [Bool.and_eq_true]
  refine ⟨(distinct_iff ks).2 h.1, ?_⟩
  have := h.2
  simpa using this

theorem objZ_total {kvs : List (Str × Option ZSchema)} (hk : goodKeys (kvs.map (·.1)))
    (h : ∀ p ∈ kvs, ∃ z, p.2 = some z) :
    ∃ zs, allSome (kvs.map (·.2)) = some zs ∧ objZ kvs = some (.object ((kvs.map (·.1)).zip zs)) := by
  obtain ⟨zs, hzs⟩ := allSome_total (f := fun p : Str × Option ZSchema => p.2) h
  exact ⟨zs, hzs, by unfold objZ; rw [hzs]; simp only; rw [if_pos (goodKeys_cond hk)]⟩

theorem extendZ_total {z : ZSchema} {l : List (Option ZSchema)} (h : ∀ x ∈ l, ∃ a, x = some a) :
    ∃ a, extendZ (some z) l = some a := by
  induction l generalizing z with
  | nil => exact ⟨z, rfl⟩
  | cons x l ih =>
    obtain ⟨a, rfl⟩ := h _ List.mem_cons_self
    exact ih (fun y hy => h y (List.mem_cons_of_mem _ hy))

theorem optZ_total {b : Bool} {z : Option ZSchema} (h : ∃ a, z = some a) : ∃ a, optZ b z = some a := by
  obtain ⟨a, rfl⟩ := h
  cases b
  · exact ⟨a, rfl⟩
  · exact ⟨.optional a, rfl⟩

theorem structFields_ty {s : StructDecl} {fd : SField} (h : fd ∈ structFields s) :
    fd.ty ∈ fieldTypes s.fields := by
  obtain ⟨x, hx, hsk, rfl⟩ := structFields_mem h
  exact List.mem_map.2 ⟨x, List.mem_filter.2 ⟨hx, by simp [hsk]⟩, rfl⟩

theorem struct_keys (s : StructDecl) (hn : ∀ x ∈ s.fields, x.named = true) :
    ((structFields s).filter (fun f => !f.flatten)).map (fun f => f.name.getD []) =
      keptNames (s.fields.filter (fun f => !f.flatten)) := by
  unfold structFields keptNames
  generalize s.fields = l at *
  induction l with
  | nil => rfl
  | cons a l ih =>
    have h2 := ih (fun x hx => hn x (List.mem_cons_of_mem _ hx))
    have h1 := hn a List.mem_cons_self
    cases hs : a.skipDe <;> cases hf : a.flatten <;>
      simp_all [SField.ofField]

theorem struct_total {s : StructDecl} (hw : wellStyled (.struct s) = true)
    (hnt : s.transparent = false → s.style = .named → goodKeys (keptNames (s.fields.filter (fun f => !f.flatten))))
    {ps : List Piece} (hps : structSchema s = .ok ps)
    (hG : ∀ t ∈ fieldTypes s.fields, ∃ z, g .inlineSchema t = some z) : ∃ z, structZ g s = some z := by
  have hf : ∀ fd ∈ structFields s, ∃ z, sfieldZ g fd = some z := fun fd hfd =>
    optZ_total (hG _ (structFields_ty hfd))
  have hf' : ∀ fd ∈ (structFields s).filter (fun f => !f.flatten), ∃ z, sfieldZ g fd = some z :=
    fun fd hfd => hf fd (List.mem_filter.1 hfd).1
  unfold structSchema at hps
  unfold structZ
  simp only at hps ⊢
  cases htr : s.transparent with
  | true =>
    rw [htr] at hps
    simp only at hps ⊢
    generalize (structFields s).filter (fun f => !f.flatten) = fields at *
    cases fields with
    | nil => cases hps
    | cons fd r => exact hf' fd List.mem_cons_self
  | false =>
    rw [htr] at hps
    cases hst : s.style with
    | unit => rw [hst] at hps; cases hps
    | tuple =>
      rw [hst] at hps
      simp only at hps ⊢
      generalize (structFields s).filter (fun f => !f.flatten) = fields at *
      rcases fields with _ | ⟨fd, _ | ⟨b, r⟩⟩
      · cases hps
      · exact hf' fd List.mem_cons_self
      · obtain ⟨zs, hzs⟩ := allSome_total hf'
        simp only
        rw [hzs]
        exact ⟨_, rfl⟩
    | named =>
      simp only
      have hk := hnt htr hst
      have hn : ∀ x ∈ s.fields, x.named = true := by
        simp only [wellStyled, hst] at hw
        exact fun x hx => List.all_eq_true.1 hw x hx
      rw [← struct_keys s hn] at hk
      obtain ⟨zs, _, ho⟩ := objZ_total
        (kvs := ((structFields s).filter (fun f => !f.flatten)).map (fun f => (f.name.getD [], sfieldZ g f)))
        (by rw [List.map_map]; exact hk)
        (by
          intro p hp
          obtain ⟨fd, hfd, rfl⟩ := List.mem_map.1 hp
          exact hf' fd hfd)
      rw [ho]
      refine extendZ_total ?_
      intro x hx
      obtain ⟨fd, hfd, rfl⟩ := List.mem_map.1 hx
      exact hf fd (List.mem_filter.1 hfd).1

/-! ## Enums -/

theorem unit_total {tag : Tag} {v : Variant} (ho : OkVariant tag v) : ∃ z, unitZ tag v.name = some z := by
  cases tag with
  | external => exact ⟨_, rfl⟩
  | untagged => exact ⟨_, rfl⟩
  | internal t =>
    obtain ⟨zs, _, h⟩ := objZ_total (kvs := [(t, some (.literal v.name))]) ho.2.1 (by simp)
    exact ⟨_, h⟩
  | adjacent t c =>
    have : goodKeys [t] := ⟨by simp, fun h => ho.2.2 (by
      rw [List.mem_singleton] at h; rw [h]; exact List.mem_cons_self)⟩
    obtain ⟨zs, _, h⟩ := objZ_total (kvs := [(t, some (.literal v.name))]) this (by simp)
    exact ⟨_, h⟩

theorem vfield_total {v : Variant} (hG : ∀ t ∈ fieldTypes v.fields, ∃ z, g .inlineSchema t = some z) :
    ∀ fd ∈ v.kept, ∃ z, vfieldZ g fd = some z := fun fd hfd =>
  optZ_total (hG _ (List.mem_map.2 ⟨fd, hfd, rfl⟩))

theorem tupleFields_total {fs : List Field} (h : ∀ fd ∈ fs, ∃ z, vfieldZ g fd = some z) :
    ∃ z, tupleFieldsZ g fs = some z := by
  have gen : ∀ fs : List Field, (∀ fd ∈ fs, ∃ z, vfieldZ g fd = some z) →
      ∃ z, (allSome (fs.map (vfieldZ g))).map ZSchema.tuple = some z := by
    intro fs h
    obtain ⟨zs, hzs⟩ := allSome_total h
    exact ⟨_, by rw [hzs]; rfl⟩
  match fs, h with
  | [], h => exact gen [] h
  | [fd], h => exact h fd List.mem_cons_self
  | a :: b :: r, h => exact gen _ h

theorem ne_proto {a : Str} (h : a ≠ lit "__proto__") : goodKeys [a] :=
  ⟨by simp, fun e => h (List.mem_singleton.1 e).symm⟩

theorem variant_total {tag : Tag} {v : Variant} (ho : OkVariant tag v)
    (hG : ∀ t ∈ fieldTypes v.fields, ∃ z, g .inlineSchema t = some z) : ∃ z, variantZ g tag v = some z := by
  have hv := vfield_total hG
  unfold variantZ
  cases hst : v.style with
  | unit => exact unit_total ho
  | tuple =>
    unfold tupleVariantZ
    cases hk : v.kept with
    | nil => exact unit_total ho
    | cons fd fs =>
      simp only
      rw [hk] at hv
      obtain ⟨z, hz⟩ := tupleFields_total hv
      rw [hz]
      cases tag with
      | external =>
        obtain ⟨zs, _, h⟩ := objZ_total (kvs := [(v.name, some z)]) (ne_proto ho.2) (by simp)
        exact ⟨_, h⟩
      | internal t =>
        obtain ⟨zs, _, h⟩ := objZ_total (kvs := [(v.name, some z)]) (ne_proto ho.2.2.1) (by simp)
        exact ⟨_, h⟩
      | adjacent t c =>
        obtain ⟨zs, _, h⟩ := objZ_total (kvs := [(t, some (.literal v.name)), (c, some z)]) ho.2 (by simp)
        exact ⟨_, h⟩
      | untagged => exact ⟨z, rfl⟩
  | named =>
    unfold structVariantZ
    simp only
    have hkeys : (v.kept.map (fun f => (f.name, vfieldZ g f))).map (·.1) = keptNames v.fields := by
      rw [List.map_map]; rfl
    have hvals : ∀ p ∈ v.kept.map (fun f => (f.name, vfieldZ g f)), ∃ z, p.2 = some z := by
      intro p hp
      obtain ⟨fd, hfd, rfl⟩ := List.mem_map.1 hp
      exact hv fd hfd
    obtain ⟨zs, _, h⟩ := objZ_total (kvs := v.kept.map (fun f => (f.name, vfieldZ g f)))
      (by rw [hkeys]; exact ho.1 hst) hvals
    cases tag with
    | untagged => exact ⟨_, h⟩
    | external =>
      rw [h]
      obtain ⟨zs, _, h⟩ := objZ_total (kvs := [(v.name, some _)]) (ne_proto ho.2) (by simp)
      exact ⟨_, h⟩
    | adjacent t c =>
      rw [h]
      obtain ⟨zs, _, h⟩ := objZ_total (kvs := [(t, some (.literal v.name)), (c, some _)]) ho.2 (by simp)
      exact ⟨_, h⟩
    | internal t =>
      simp only
      obtain ⟨zs, _, h⟩ := objZ_total
        (kvs := (t, some (.literal v.name)) :: v.kept.map (fun f => (f.name, vfieldZ g f)))
        (by
          rw [List.map_cons, hkeys]
          refine ⟨List.nodup_cons.2 ⟨ho.2.2.2 hst, (ho.1 hst).1⟩, ?_⟩
          intro hm
          rcases List.mem_cons.1 hm with e | hm
          · exact ho.2.1.2 (by rw [e]; exact List.mem_cons_self)
          · exact (ho.1 hst).2 hm)
        (by
          intro p hp
          rcases List.mem_cons.1 hp with rfl | hp
          · exact ⟨_, rfl⟩
          · exact hvals p hp)
      exact ⟨_, h⟩

/-- The tag of a variant's schema. -/
theorem variant_disc {tag : Tag} {t : Str} (ht : tag = .internal t ∨ ∃ c, tag = .adjacent t c) {v : Variant}
    (hnt : (∃ t, tag = .internal t) → v.style = .tuple → v.kept = []) {z : ZSchema}
    (h : variantZ g tag v = some z) : discriminator t z = some v.name := by
  have obj : ∀ (kvs : List (Str × Option ZSchema)) z, objZ ((t, some (.literal v.name)) :: kvs) = some z →
      discriminator t z = some v.name := by
    intro kvs z h
    unfold objZ at h
    split at h
    · rename_i zs hzs
      split at h
      · injection h with h
        subst h
        rw [List.map_cons] at hzs
        simp only [allSome] at hzs
        cases hr : allSome (kvs.map (·.2)) with
        | none => rw [hr] at hzs; cases hzs
        | some l =>
          rw [hr] at hzs
          injection hzs with hzs
          subst hzs
          simp [discriminator]
      · cases h
    · cases h
  unfold variantZ at h
  cases hst : v.style with
  | unit =>
    rw [hst] at h
    rcases ht with rfl | ⟨c, rfl⟩
    · exact obj [] _ h
    · exact obj [] _ h
  | tuple =>
    rw [hst] at h
    simp only [tupleVariantZ] at h
    rcases ht with rfl | ⟨c, rfl⟩
    · rw [hnt ⟨t, rfl⟩ hst] at h
      exact obj [] _ h
    · cases hk : v.kept with
      | nil => rw [hk] at h; exact obj [] _ h
      | cons a b => rw [hk] at h; exact obj _ _ h
  | named =>
    rw [hst] at h
    simp only [structVariantZ] at h
    rcases ht with rfl | ⟨c, rfl⟩
    · exact obj _ _ h
    · exact obj _ _ h

theorem discOptions_total {t : Str} {vs : List Variant} {zs : List ZSchema}
    (h : All2 (fun v z => discriminator t z = some v.name) vs zs) (hd : (vs.map (·.name)).Nodup) :
    discOptions t zs = some ((vs.map (·.name)).zip zs) := by
  induction h with
  | nil => rfl
  | @cons v z vs zs h1 h2 ih =>
    rw [List.map_cons, List.nodup_cons] at hd
    rw [discOptions, h1, ih hd.2]
    simp only [List.map_cons, List.zip_cons_cons]
    rw [if_neg]
    intro hany
    rw [List.any_eq_true] at hany
    obtain ⟨p, hp, he⟩ := hany
    have he : p.1 = v.name := by simpa using he
    exact hd.1 (he ▸ (List.of_mem_zip hp).1)

theorem allSome_all2 {α β : Type} {f : α → Option β} {l : List α} {r : List β}
    (h : allSome (l.map f) = some r) : All2 (fun a b => f a = some b) l r := by
  induction l generalizing r with
  | nil => cases h; exact .nil
  | cons a l ih =>
    rw [List.map_cons] at h
    cases hf : f a with
    | none => rw [hf] at h; cases h
    | some b =>
      rw [hf, allSome] at h
      cases hr : allSome (l.map f) with
      | none => rw [hr] at h; cases h
      | some bs =>
        rw [hr] at h
        injection h with h
        subst h
        exact .cons hf (ih hr)

theorem All2.imp_mem {α β : Type} {R S : α → β → Prop} {l : List α} {r : List β} (h : All2 R l r)
    (hi : ∀ a ∈ l, ∀ b, R a b → S a b) : All2 S l r := by
  induction h with
  | nil => exact .nil
  | cons h1 _ ih =>
    exact .cons (hi _ List.mem_cons_self _ h1) (ih fun a ha => hi a (List.mem_cons_of_mem _ ha))

theorem enum_total {e : EnumDecl} (hok : ∀ v ∈ e.variants, v.skipDe = false → OkVariant e.tag v)
    (hf : e.from_.ty? = none) (hdi : Discriminated e) {ps : List Piece}
    (hps : enumSchema e = .ok ps)
    (hG : ∀ v ∈ e.kept, ∀ t ∈ fieldTypes v.fields, ∃ z, g .inlineSchema t = some z) :
    ∃ z, enumZ g e = some z := by
  have hmem : ∀ v ∈ e.kept, v ∈ e.variants ∧ v.skipDe = false := by
    intro v hv
    have := List.mem_filter.1 hv
    exact ⟨this.1, by simpa using this.2⟩
  have hv : ∀ v ∈ e.kept, ∃ z, variantZ g e.tag v = some z := fun v hvm =>
    variant_total (hok v (hmem v hvm).1 (hmem v hvm).2) (hG v hvm)
  unfold enumSchema at hps
  unfold enumZ
  match hk : e.kept, hps with
  | [v], hps => exact hv v (by rw [hk]; exact List.mem_cons_self)
  | a :: b :: r, hps =>
    simp only
    rw [← hk]
    obtain ⟨zs, hzs⟩ := allSome_total hv
    have hd : ∀ t, (e.tag = .internal t ∨ ∃ c, e.tag = .adjacent t c) →
        ∃ z, discZ t (e.kept.map (variantZ g e.tag)) = some z := by
      intro t ht
      unfold discZ
      rw [hzs]
      have hdi := hdi hf (by rw [show e.variants.filter (fun v => !v.skipDe) = e.kept from rfl, hk]; simp)
      have hdv : DistinctVariants e := by
        rcases ht with h | ⟨c, h⟩ <;> rw [h] at hdi
        · exact hdi.2
        · exact hdi
      have h2 : All2 (fun v z => discriminator t z = some v.name) e.kept zs := by
        refine All2.imp_mem (allSome_all2 hzs) ?_
        intro v hvm z hz
        refine variant_disc ht ?_ hz
        rintro ⟨t', ht'⟩ hst
        rw [ht'] at hdi
        exact List.map_eq_nil_iff.1 (hdi.1 v (hmem v hvm).1 (hmem v hvm).2 hst)
      simp only
      rw [discOptions_total h2 hdv]
      exact ⟨_, rfl⟩
    cases htag : e.tag with
    | external => rw [htag] at hzs; rw [hzs]; exact ⟨_, rfl⟩
    | untagged => rw [htag] at hzs; rw [hzs]; exact ⟨_, rfl⟩
    | internal t =>
      have := hd t (Or.inl htag)
      rw [htag] at this
      exact this
    | adjacent t c =>
      have := hd t (Or.inr ⟨c, htag⟩)
      rw [htag] at this
      exact this

/-! ## All types -/

theorem noBools_mem {ts : List Ty} (h : noBool.noBools ts = true) : ∀ t ∈ ts, noBool t = true := by
  induction ts with
  | nil => simp
  | cons a l ih =>
    simp only [noBool.noBools, Bool.and_eq_true] at h
    intro t ht
    rcases List.mem_cons.1 ht with rfl | ht
    · exact h.1
    · exact ih h.2 t ht

theorem primZ_total {p : Prim} (h : noBool (.prim p) = true) : ∃ z, primZ p = some z := by
  cases p <;> first | exact ⟨_, rfl⟩ | cases h

/-- Where the text is returned, the schema exists. -/
theorem zOf_total' {P : Program} (hw : WellStyled P) (hpl : ∀ d ∈ P, Plain d)
    (hko : ∀ d ∈ P, KeysOk d) (hnt : ∀ d ∈ P, Constructs d) : ∀ (n : Nat) (m : Method) (t : Ty) (s : Str), isZ m → noBool t = true →
      eval P n m t = some s → ∃ z, zOf P n m t = some z := by
  intro n
  induction n with
  | zero => intro m t s _ _ h; cases h
  | succ n ih =>
    intro m t s hm hb h
    obtain ⟨ps, hbody, hr⟩ := eval_succ.1 h
    have hcall : ∀ m' t', isZ m' → noBool t' = true → Piece.call m' t' ∈ ps → ∃ z, zOf P n m' t' = some z := by
      intro m' t' hm' hb' hc
      obtain ⟨x, hx⟩ := runPieces_call_mem hr hc
      exact ih m' t' x hm' hb' hx
    have hdef : ∀ t', t' = t → noBool t' = true → Piece.call .schema t' ∈ ps →
        ∃ z, zOf P n .schema t' = some z := fun t' _ hb' hc => hcall _ _ (Or.inl rfl) hb' hc
    rw [zOf]
    cases t with
    | named i =>
      obtain ⟨d, impl, hd, hi, rfl⟩ := body_named hbody
      rw [zBody_named P m i hd]
      have hmem := List.mem_of_getElem? hd
      have hnd := hnt d hmem
      have hkd := hko d hmem
      have hpd := hpl d hmem
      have hwd := hw d hmem
      cases d with
      | struct sd =>
        obtain ⟨docs, sch, td, _, _, hs, _, e⟩ := deriveStruct_ok hi
        rcases hm with rfl | rfl
        · simp only [declZ]
          cases hf : sd.from_.ty? with
          | some u =>
            rw [hf] at e; subst e
            exact hcall _ _ (Or.inr rfl) (hnd.1 u (by simp [schemaTypes, hf])) (by simp [Impl.get])
          | none =>
            rw [hf] at e; subst e
            exact struct_total hwd (hkd hf) hs fun t ht =>
              hcall _ _ (Or.inr rfl) (hnd.1 t (by simp only [schemaTypes, hf]; exact ht))
                (structSchema_mem hpd hs ht)
        · exact ⟨_, rfl⟩
      | enum ed =>
        obtain ⟨docs, sch, td, _, hs, _, e⟩ := deriveEnum_ok hi
        rcases hm with rfl | rfl
        · simp only [declZ]
          cases hf : ed.from_.ty? with
          | some u =>
            rw [hf] at e; subst e
            exact hcall _ _ (Or.inl rfl) (hnd.1 u (by simp [schemaTypes, hf])) (by simp [Impl.get])
          | none =>
            rw [hf] at e; subst e
            refine enum_total (hkd hf) hf (hnd.2 _ rfl) hs fun v hv t ht => ?_
            have hmm : t ∈ ((ed.variants.filter (fun v => !v.skipDe)).map
                (fun v => fieldTypes v.fields)).flatten :=
              List.mem_flatten.2 ⟨_, List.mem_map.2 ⟨v, hv, rfl⟩, ht⟩
            exact hcall _ _ (Or.inr rfl) (hnd.1 t (by
              simp only [schemaTypes, hf]; exact hmm)) (enumSchema_mem hpd hs hmm)
        · simp only [declInlineZ]
          cases hf : ed.from_.ty? with
          | some u =>
            rw [hf] at e; subst e
            exact hcall _ _ (Or.inr rfl) (hnd.1 u (by simp [schemaTypes, hf])) (by simp [Impl.get])
          | none => exact ⟨_, rfl⟩
    | prim p =>
      rcases hm with rfl | rfl
      · exact primZ_total hb
      · injection hbody with e; subst e
        exact hdef _ rfl hb (by simp)
    | wrap w u =>
      rcases hm with rfl | rfl
      · injection hbody with e; subst e
        exact hcall _ _ (Or.inl rfl) hb (by simp)
      · injection hbody with e; subst e
        exact hdef _ rfl hb (by simp)
    | option u =>
      rcases hm with rfl | rfl
      · injection hbody with e; subst e
        obtain ⟨z, hz⟩ := hcall .inlineSchema u (Or.inr rfl) hb (by simp)
        exact ⟨.optional z, by rw [zBody, hz]; rfl⟩
      · injection hbody with e; subst e
        exact hdef _ rfl hb (by simp)
    | vec u =>
      rcases hm with rfl | rfl
      · injection hbody with e; subst e
        obtain ⟨z, hz⟩ := hcall .inlineSchema u (Or.inr rfl) hb (by simp)
        exact ⟨.array z, by rw [zBody, hz]; rfl⟩
      · injection hbody with e; subst e
        exact hdef _ rfl hb (by simp)
    | hashSet u =>
      rcases hm with rfl | rfl
      · injection hbody with e; subst e
        obtain ⟨z, hz⟩ := hcall .inlineSchema u (Or.inr rfl) hb (by simp)
        exact ⟨.set z, by rw [zBody, hz]; rfl⟩
      · injection hbody with e; subst e
        exact hdef _ rfl hb (by simp)
    | hashMap k v =>
      rcases hm with rfl | rfl
      · injection hbody with e; subst e
        simp only [noBool, Bool.and_eq_true] at hb
        obtain ⟨z, hz⟩ := hcall .inlineSchema k (Or.inr rfl) hb.1 (by simp)
        obtain ⟨z', hz'⟩ := hcall .inlineSchema v (Or.inr rfl) hb.2 (by simp)
        exact ⟨.map z z', by rw [zBody, hz, hz']; rfl⟩
      · injection hbody with e; subst e
        exact hdef _ rfl hb (by simp)
    | array l u =>
      rcases hm with rfl | rfl
      · injection hbody with e; subst e
        exact hcall .schema (.vec u) (Or.inl rfl) hb (by simp)
      · injection hbody with e; subst e
        exact hdef _ rfl hb (by simp)
    | btreeSet u =>
      rcases hm with rfl | rfl
      · injection hbody with e; subst e
        exact hcall .schema (.hashSet u) (Or.inl rfl) hb (by simp)
      · injection hbody with e; subst e
        exact hdef _ rfl hb (by simp)
    | btreeMap k v =>
      rcases hm with rfl | rfl
      · injection hbody with e; subst e
        exact hcall .schema (.hashMap k v) (Or.inl rfl) hb (by simp)
      · injection hbody with e; subst e
        exact hdef _ rfl hb (by simp)
    | tuple ts =>
      rcases hm with rfl | rfl
      · injection hbody with e; subst e
        have hts := noBools_mem hb
        obtain ⟨zs, hzs⟩ := allSome_total (f := zOf P n .schema) (l := ts) fun t ht =>
          hcall .schema t (Or.inl rfl) (hts t ht) (by
            refine mem_wrap' (joinP_mem (List.mem_map.2 ⟨t, ht, rfl⟩) ?_)
            exact List.mem_cons_self)
        exact ⟨.tuple zs, by rw [zBody, hzs]; rfl⟩
      · injection hbody with e; subst e
        exact hdef _ rfl hb (by simp)
    | result u e =>
      rcases hm with rfl | rfl
      · injection hbody with e; subst e
        simp only [noBool, Bool.and_eq_true] at hb
        obtain ⟨z, hz⟩ := hcall .inlineSchema u (Or.inr rfl) hb.1 (by simp)
        obtain ⟨z', hz'⟩ := hcall .inlineSchema e (Or.inr rfl) hb.2 (by simp)
        refine ⟨.union [.object [(lit "Ok", z)], .object [(lit "Err", z')]], ?_⟩
        rw [zBody, hz, hz']
        rfl
      · injection hbody with e; subst e
        exact hdef _ rfl hb (by simp)

theorem schemaTypes_sub {d : Decl} {t : Ty} (h : t ∈ schemaTypes d) : t ∈ declTypes d := by
  cases d with
  | struct s =>
    cases hf : s.from_.ty? with
    | some u => simp only [schemaTypes, hf, List.mem_singleton] at h; subst h; simp [declTypes, hf]
    | none => simp only [schemaTypes, hf] at h; simp [declTypes, h]
  | enum e =>
    cases hf : e.from_.ty? with
    | some u => simp only [schemaTypes, hf, List.mem_singleton] at h; subst h; simp [declTypes, hf]
    | none => simp only [schemaTypes, hf] at h; exact List.mem_append_left _ h

theorem NoThrow.keys {d : Decl} (h : NoThrow d) : KeysOk d := by
  cases d with
  | struct s => exact fun _ => h.2
  | enum e => exact fun _ => h.2.1

theorem NoThrow.constructs {d : Decl} (h : NoThrow d) : Constructs d := by
  refine ⟨fun t ht => h.1 t (schemaTypes_sub ht), ?_⟩
  rintro e rfl _ hl
  obtain ⟨_, _, htt, hdv⟩ := h
  unfold NoTaggedTuple at htt
  cases htag : e.tag with
  | internal t =>
    rw [htag] at htt
    rcases htt with h | h
    · omega
    · exact ⟨h, hdv⟩
  | adjacent t c => exact hdv
  | external => trivial
  | untagged => trivial

theorem zOf_total {P : Program} (hw : WellStyled P) (hpl : ∀ d ∈ P, Plain d)
    (hnt : ∀ d ∈ P, NoThrow d) (n : Nat) (m : Method) (t : Ty) (s : Str) (hm : isZ m) (hb : noBool t = true)
    (h : eval P n m t = some s) : ∃ z, zOf P n m t = some z :=
  zOf_total' hw hpl (fun d hd => NoThrow.keys (hnt d hd)) (fun d hd => NoThrow.constructs (hnt d hd)) n m t s hm hb h

end Verif.Zod
