import Verif.Ts.Bridge
import Verif.Ts.Values
import Verif.Schema.Steps

/-!
# The generated types have the values of the types that are meant
-/

namespace Verif.Ts
open Verif Verif.Js Verif.Schema Verif.SchemaSpec Verif.Spec Verif.Zod

/-- What `g` gives for the calls `f` answers has the values of the type that is meant. -/
def Meant (P : Program) (f : Method → Ty → Option Str) (g : Method → Ty → Dnf) : Prop :=
  ∀ m t s, isT m → f m t = some s → ∃ T, Means P (decide (m = .inline)) t T ∧ SameValues (ofDnf (g m t)) T

variable {P : Program} {f : Method → Ty → Option Str} {g : Method → Ty → Dnf}

theorem all2_exists {α β : Type} {R : α → β → Prop} {l : List α} (h : ∀ a ∈ l, ∃ b, R a b) : ∃ r, All2 R l r := by
  induction l with
  | nil => exact ⟨[], .nil⟩
  | cons a l ih =>
    obtain ⟨b, hb⟩ := h a List.mem_cons_self
    obtain ⟨r, hr⟩ := ih (fun a ha => h a (List.mem_cons_of_mem _ ha))
    exact ⟨b :: r, .cons hb hr⟩

theorem all2_imp {α β : Type} {R S : α → β → Prop} (h : ∀ a b, R a b → S a b) {l : List α} {r : List β}
    (hl : All2 R l r) : All2 S l r := by
  induction hl with
  | nil => exact .nil
  | cons h1 _ ih => exact .cons (h _ _ h1) ih

theorem same_opt {d : Dnf} {T : TsType} (b : Bool) (h : SameValues (ofDnf d) T) :
    SameValues (ofDnf (optD b d)) (orUndefined b T) := by
  cases b with
  | false => exact h
  | true => exact SameValues.trans (same_append d undefD) (same_union (.cons h (.cons (same_refl _) .nil)))

/-- The field's type is the one that is meant. -/
def FieldMeant (P : Program) (g : Method → Ty → Dnf) (fd : Field) (T : TsType) : Prop :=
  Means P true fd.ty T ∧ SameValues (ofDnf (g .inline fd.ty)) T

theorem fields_meant (H : Meant P f g) {fs : List Field} (h : ∀ fd ∈ fs, ∃ s, f .inline fd.ty = some s) :
    ∃ Ts, All2 (FieldMeant P g) fs Ts :=
  all2_exists fun fd hfd => by
    obtain ⟨s, hs⟩ := h fd hfd
    obtain ⟨T, h1, h2⟩ := H _ _ _ (Or.inr rfl) hs
    exact ⟨T, h1, h2⟩

theorem FieldMeant.get {fs : List Field} {Ts : List TsType} (h : All2 (FieldMeant P g) fs Ts) :
    ∀ (j : Nat) f T, fs[j]? = some f → Ts[j]? = some T → Means P true f.ty T :=
  fun _ _ _ hf hT => (All2.get h hf hT).1

theorem elems_same {fs : List Field} {Ts : List TsType} (h : All2 (FieldMeant P g) fs Ts) :
    All2 SameValues ((fs.map (fun fd => optD fd.dflt (g .inline fd.ty))).map ofDnf) (elemsT fs Ts) := by
  induction h with
  | nil => exact .nil
  | cons h1 _ ih => exact .cons (same_opt _ h1.2) ih

theorem props_same {fs : List Field} {Ts : List TsType} (h : All2 (FieldMeant P g) fs Ts) :
    All2 SameProp ((fs.map (fun fd => (fd.name, fd.dflt, optD fd.dflt (g .inline fd.ty)))).map propT) (propsT fs Ts) := by
  induction h with
  | nil => exact .nil
  | cons h1 _ ih => exact .cons ⟨rfl, rfl, same_opt _ h1.2⟩ ih

/-! ## Structs -/

theorem structFields_filter (s : StructDecl) (p : SField → Bool) (q : Field → Bool)
    (h : ∀ x, p (SField.ofField s.transparent x) = q x) :
    (structFields s).filter p = ((keptFields s.fields).filter q).map (SField.ofField s.transparent) := by
  unfold structFields keptFields
  rw [List.filter_map]
  congr 1
  apply List.filter_congr
  intro x _
  exact h x

theorem struct_means {i : Nat} {s : StructDecl} (hi : P[i]? = some (.struct s)) (hpl : Plain (.struct s))
    (hw : wellStyled (.struct s) = true)
    (hfl : ∀ fd ∈ s.fields, fd.skipDe = false → fd.flatten = true → fd.dflt = false → ∃ c, g .inline fd.ty = [c])
    (H : Meant P f g) (hfr : s.from_.ty? = none) {ps : List Piece}
    (hps : structTypeDef s = .ok ps) {t : Str} (h : runPieces f ps = some t) :
    ∃ T, Means P false (.named i) T ∧ SameValues (ofDnf (structD g s)) T := by
  have hcall : ∀ fd ∈ keptFields s.fields, ∃ x, f .inline fd.ty = some x := fun fd hfd =>
    runPieces_call_mem h (structTypeDef_mem hpl hps (List.mem_map.2 ⟨fd, hfd, rfl⟩))
  unfold structTypeDef at hps
  unfold structD
  simp only at hps ⊢
  rw [structFields_filter s (·.flatten) (·.flatten) (fun _ => rfl),
    structFields_filter s (fun f => !f.flatten) (fun f => !f.flatten) (fun _ => rfl)] at *
  have noFl : s.transparent = true ∨ s.style = .tuple →
      (keptFields s.fields).filter (fun f => !f.flatten) = keptFields s.fields := by
    intro hts
    rw [List.filter_eq_self]
    intro fd hfd
    have hm := List.mem_filter.1 hfd
    simp [hpl.1 hts fd hm.1 (by simpa using hm.2)]
  cases htr : s.transparent with
  | true =>
    obtain ⟨fd, hk⟩ := hpl.2 htr
    have hk : keptFields s.fields = [fd] := hk
    rw [noFl (Or.inl htr), hk]
    simp only [List.map_cons]
    obtain ⟨x, hx⟩ := hcall fd (by rw [hk]; exact List.mem_singleton.2 rfl)
    obtain ⟨T, h1, h2⟩ := H _ _ _ (Or.inr rfl) hx
    exact ⟨_, .newtype i s fd T hi hfr (Or.inl htr) hk h1, same_opt _ h2⟩
  | false =>
    cases hst : s.style with
    | unit => rw [htr, hst] at hps; cases hps
    | tuple =>
      rw [noFl (Or.inr hst)] at hps ⊢
      rw [htr, hst] at hps
      obtain ⟨Ts, hTs⟩ := fields_meant H hcall
      rcases hk : keptFields s.fields with _ | ⟨fd, _ | ⟨b, r⟩⟩
      · rw [hk] at hps; cases hps
      · simp only [List.map_cons, List.map_nil]
        obtain ⟨x, hx⟩ := hcall fd (by rw [hk]; exact List.mem_singleton.2 rfl)
        obtain ⟨T, h1, h2⟩ := H _ _ _ (Or.inr rfl) hx
        exact ⟨_, .newtype i s fd T hi hfr (Or.inr hst) hk h1, same_opt _ h2⟩
      · refine ⟨_, .tupleStruct i s Ts hi hfr htr hst (by rw [hk]; simp) (All2.length hTs) (FieldMeant.get hTs), ?_⟩
        rw [hk] at hTs ⊢
        have := elems_same hTs
        refine same_tuple ?_
        rw [List.map_map (f := SField.ofField false)]
        exact this
    | named =>
      simp only
      obtain ⟨Ts, hTs⟩ := fields_meant H (fs := (keptFields s.fields).filter (fun f => !f.flatten))
        (fun fd hfd => hcall fd (List.mem_filter.1 hfd).1)
      obtain ⟨Us, hUs⟩ := fields_meant H (fs := (keptFields s.fields).filter (fun f => f.flatten))
        (fun fd hfd => hcall fd (List.mem_filter.1 hfd).1)
      refine ⟨_, .namedStruct i s Ts Us hi hfr htr hst (All2.length hTs) (FieldMeant.get hTs)
        (All2.length hUs) (FieldMeant.get hUs), ?_⟩
      have hnm : ∀ fd ∈ keptFields s.fields, fd.named = true := by
        intro fd hfd
        simp only [wellStyled, hst] at hw
        exact List.all_eq_true.1 hw fd (List.mem_filter.1 hfd).1
      have hobj : ((((keptFields s.fields).filter (fun f => !f.flatten)).map (SField.ofField false)).map
          (sfieldP g)).map propT = (((keptFields s.fields).filter (fun f => !f.flatten)).map
            (fun fd => (fd.name, fd.dflt, optD fd.dflt (g .inline fd.ty)))).map propT := by
        congr 1
        rw [List.map_map]
        apply List.map_congr_left
        intro fd hfd
        have := hnm fd (List.mem_filter.1 hfd).1
        simp [sfieldP, sfieldD, SField.ofField, this]
      rw [hobj]
      have hflat : ∃ cs, (((keptFields s.fields).filter (fun f => f.flatten)).map (SField.ofField false)).map (flatD g) =
          cs.map (fun c => [c]) ∧ All2 (fun c T => SameValues (ofConj c) T) cs
            (elemsT ((keptFields s.fields).filter (fun f => f.flatten)) Us) := by
        have hfl' : ∀ fd ∈ (keptFields s.fields).filter (fun f => f.flatten), fd.dflt = false →
            ∃ c, g .inline fd.ty = [c] := by
          intro fd hfd hd
          have h1 := List.mem_filter.1 hfd
          have h2 := List.mem_filter.1 h1.1
          exact hfl fd h2.1 (by simpa using h2.2) h1.2 hd
        generalize (keptFields s.fields).filter (fun f => f.flatten) = fl at *
        clear hTs hobj hps
        induction hUs with
        | nil => exact ⟨[], rfl, .nil⟩
        | @cons fd U fl Us h1 h2 ih =>
          obtain ⟨cs, e, ha⟩ := ih (fun fd hfd => hfl' fd (List.mem_cons_of_mem _ hfd))
          have : ∃ c, flatD g (SField.ofField false fd) = [c] ∧ SameValues (ofConj c) (orUndefined fd.dflt U) := by
            cases hd : fd.dflt with
            | false =>
              obtain ⟨c, hc⟩ := hfl' fd List.mem_cons_self hd
              refine ⟨c, by simp [flatD, SField.ofField, hd, hc], ?_⟩
              have := h1.2
              rw [hc] at this
              exact this
            | true =>
              refine ⟨[ofDnf (g .inline fd.ty ++ undefD)], by simp [flatD, SField.ofField, hd], ?_⟩
              exact same_opt true h1.2
          obtain ⟨c, hc, hs⟩ := this
          refine ⟨c :: cs, ?_, .cons hs ha⟩
          simp only [List.map_cons, hc, e]
      obtain ⟨cs, e, ha⟩ := hflat
      rw [e]
      refine SameValues.trans (same_and cs) (same_inter (.cons ?_ ?_))
      · exact same_obj (props_same hTs)
      · clear e
        generalize elemsT ((keptFields s.fields).filter (fun f => f.flatten)) Us = Vs at *
        induction ha with
        | nil => exact .nil
        | cons h1 _ ih => exact .cons h1 ih

/-! ## Enums -/

theorem payload_same {fs : List Field} {Ts : List TsType} (h : All2 (FieldMeant P g) fs Ts) :
    SameValues (ofDnf (tupleFieldsD g fs)) (payloadT fs Ts) := by
  have he := elems_same h
  unfold payloadT tupleFieldsD
  cases h with
  | nil => exact same_tuple .nil
  | cons h1 h2 =>
    cases h2 with
    | nil => exact same_opt _ h1.2
    | cons h2 h3 => exact same_tuple he

theorem unit_same (tag : Tag) (name : Str) : SameValues (ofDnf [[unitD tag name]]) (unitT tag name) := by
  cases tag <;> exact same_refl _

theorem sameProp_refl (p : Str × Bool × TsType) : SameProp p p := ⟨rfl, rfl, same_refl _⟩

theorem variant_same {tag : Tag} {v : Variant} {Ts : List TsType}
    (h : All2 (FieldMeant P g) (keptFields v.fields) Ts) :
    SameValues (ofDnf (variantD g tag v)) (variantT tag v (keptFields v.fields) Ts) := by
  unfold variantD variantT
  cases hst : v.style with
  | unit => exact unit_same _ _
  | tuple =>
    unfold tupleVariantD Variant.kept
    simp only
    change SameValues (ofDnf (match keptFields v.fields with
      | [] => [[unitD tag v.name]]
      | f :: fs => match tag with
        | .external => [[.obj [(v.name, false, ofDnf (tupleFieldsD g (f :: fs)))]]]
        | .internal _ => [[.obj [(v.name, false, ofDnf (tupleFieldsD g (f :: fs)))]]]
        | .adjacent t c => [[.obj [(t, false, .str v.name), (c, false, ofDnf (tupleFieldsD g (f :: fs)))]]]
        | .untagged => tupleFieldsD g (f :: fs))) _
    cases hk : keptFields v.fields with
    | nil => exact unit_same _ _
    | cons fd fs =>
      rw [hk] at h
      have hp := payload_same h
      cases tag with
      | external => exact same_obj (.cons ⟨rfl, rfl, hp⟩ .nil)
      | internal t => exact same_obj (.cons ⟨rfl, rfl, hp⟩ .nil)
      | adjacent t c => exact same_obj (.cons (sameProp_refl _) (.cons ⟨rfl, rfl, hp⟩ .nil))
      | untagged => exact hp
  | named =>
    have hp : All2 SameProp (((keptFields v.fields).map (vfieldP g)).map propT) (propsT (keptFields v.fields) Ts) :=
      props_same h
    unfold structVariantD
    cases tag with
    | external => exact same_obj (.cons ⟨rfl, rfl, same_obj hp⟩ .nil)
    | internal t => exact same_obj (.cons (sameProp_refl _) hp)
    | adjacent t c => exact same_obj (.cons (sameProp_refl _) (.cons ⟨rfl, rfl, same_obj hp⟩ .nil))
    | untagged => exact same_obj hp

theorem enum_means {i : Nat} {e : EnumDecl} (hi : P[i]? = some (.enum e)) (hpl : Plain (.enum e))
    (H : Meant P f g) (hfr : e.from_.ty? = none) {ps : List Piece}
    (hps : enumTypeDef e = .ok ps) {t : Str} (h : runPieces f ps = some t) :
    ∃ T, Means P false (.named i) T ∧ SameValues (ofDnf (enumD g e)) T := by
  have hcall : ∀ v ∈ e.kept, ∀ fd ∈ keptFields v.fields, ∃ x, f .inline fd.ty = some x := fun v hv fd hfd =>
    runPieces_call_mem h (enumTypeDef_mem hpl hps (List.mem_flatten.2
      ⟨_, List.mem_map.2 ⟨v, hv, rfl⟩, List.mem_map.2 ⟨fd, hfd, rfl⟩⟩))
  obtain ⟨Tss, hTss⟩ : ∃ Tss, All2 (fun v Ts => All2 (FieldMeant P g) (keptFields v.fields) Ts) e.kept Tss :=
    all2_exists fun v hv => fields_meant H (hcall v hv)
  refine ⟨_, .enum i e Tss hi hfr (All2.length hTss) (fun j v Ts hv hT => All2.length (All2.get hTss hv hT))
    (fun j v Ts hv hT => FieldMeant.get (All2.get hTss hv hT)), ?_⟩
  unfold enumD
  refine SameValues.trans (same_flatten _) (same_union ?_)
  clear hcall h hps hi hfr
  generalize e.kept = vs at *
  induction hTss with
  | nil => exact .nil
  | cons h1 _ ih =>
    exact .cons (variant_same h1) ih

/-! ## All types -/

theorem prim_same (p : Prim) : SameValues (ofDnf [[.name [p.typeDef]]]) (primT p) := by
  cases p <;> exact same_refl _

/-- How a text is read behind `&`. -/
theorem read_behind {s : Str} {d : Dnf} (h : Den s d) :
    readType (lit "null & " ++ s) = some (ofDnf (andDnf [[.name [lit "null"]]] d)) := by
  have h0 : Den (lit "null") [[.name [lit "null"]]] := Den.word rfl rfl
  exact (h0.and (amp := lit " & ") h rfl rfl ⟨_, _, rfl, rfl⟩).read

theorem fallsApart_iff {s : Str} {d : Dnf} (h : Den s d) : FallsApart s ↔ ∃ c c' r, d = c :: c' :: r := by
  unfold FallsApart
  rw [read_behind h]
  cases d with
  | nil => exact absurd rfl h.1
  | cons c r =>
    cases r with
    | nil =>
      constructor
      · rintro ⟨ts, e⟩
        injection e with e
        cases c with
        | nil => cases e
        | cons a b => cases e
      · rintro ⟨_, _, _, e⟩
        cases e
    | cons c' r => exact ⟨fun _ => ⟨c, c', r, rfl⟩, fun _ => ⟨_, rfl⟩⟩

theorem body_means (hg : GoodNames P) (hgt : GoodTypeNames P) (hpl : ∀ d ∈ P, Plain d) (hw : WellStyled P)
    (hnf : NoFlattenedUnion P) {n : Nat} (H : Meant P (eval P n) (dOf P n)) {m : Method} {t : Ty} (hm : isT m) {ps : List Piece}
    (hb : body P m t = some ps) {s : Str} (h : runPieces (eval P n) ps = some s) :
    ∃ T, Means P (decide (m = .inline)) t T ∧ SameValues (ofDnf (tBody (dOf P n) P m t)) T := by
  have inlineCase : ∀ t', isNamed t' = false → (∀ T, Means P false t' T → Means P true t' T) →
      (∃ s, eval P n .typeDef t' = some s) →
      ∃ T, Means P true t' T ∧ SameValues (ofDnf (dOf P n .typeDef t')) T := by
    intro t' _ hup ⟨s, hs⟩
    obtain ⟨T, h1, h2⟩ := H _ _ _ (Or.inl rfl) hs
    exact ⟨T, hup T h1, h2⟩
  cases t with
  | named i =>
    obtain ⟨d, impl, hd, hi, rfl⟩ := body_named hb
    rw [tBody_named P m i hd]
    have hmem := List.mem_of_getElem? hd
    have hwd := hw d hmem
    have hpl := hpl d hmem
    cases d with
    | struct sd =>
      obtain ⟨docs, sch, td, _, _, _, hs, e⟩ := deriveStruct_ok hi
      cases hf : sd.from_.ty? with
      | some u =>
        rw [hf] at e; subst e
        rcases hm with rfl | rfl
        · simp only [Impl.get, runPieces_call_some] at h
          simp only [declD, hf]
          obtain ⟨T, h1, h2⟩ := H _ _ _ (Or.inr rfl) h
          exact ⟨T, .structFrom _ i sd u T hd hf h1, h2⟩
        · simp only [Impl.get, runPieces_call_some] at h
          simp only [declInlineD, hf]
          obtain ⟨T, h1, h2⟩ := H _ _ _ (Or.inr rfl) h
          exact ⟨T, .structFrom _ i sd u T hd hf h1, h2⟩
      | none =>
        rw [hf] at e; subst e
        rcases hm with rfl | rfl
        · simp only [declD, hf]
          refine struct_means hd hpl hwd ?_ H hf hs h
          intro fd hfd hsk hfl hdf
          obtain ⟨x, hx⟩ := runPieces_call_mem h (structTypeDef_mem hpl hs
            (List.mem_map.2 ⟨fd, List.mem_filter.2 ⟨hfd, by simp [hsk]⟩, rfl⟩))
          have hden := eval_agreeT hg hgt hw n _ _ _ (Or.inr rfl) hx
          have hno := hnf sd hmem hf fd hfd hsk hfl hdf x
          rw [fallsApart_iff hden] at hno
          revert hno
          cases hdd : dOf P n .inline fd.ty with
          | nil => exact absurd hdd hden.1
          | cons c r =>
            cases r with
            | nil => exact fun _ => ⟨c, rfl⟩
            | cons c' r => exact fun hno => absurd ⟨c, c', r, rfl⟩ (hno ⟨n, hx⟩)
        · simp only [declInlineD, hf]
          exact ⟨_, .ref i _ hd hf, same_refl _⟩
    | enum ed =>
      obtain ⟨docs, sch, td, _, _, hs, e⟩ := deriveEnum_ok hi
      cases hf : ed.from_.ty? with
      | some u =>
        rw [hf] at e; subst e
        rcases hm with rfl | rfl
        · simp only [Impl.get, runPieces_call_some] at h
          simp only [declD, hf]
          obtain ⟨T, h1, h2⟩ := H _ _ _ (Or.inl rfl) h
          exact ⟨T, .enumFrom _ i ed u T hd hf h1, h2⟩
        · simp only [Impl.get, runPieces_call_some] at h
          simp only [declInlineD, hf]
          obtain ⟨T, h1, h2⟩ := H _ _ _ (Or.inr rfl) h
          exact ⟨T, .enumFrom _ i ed u T hd hf h1, h2⟩
      | none =>
        rw [hf] at e; subst e
        rcases hm with rfl | rfl
        · simp only [declD, hf]
          exact enum_means hd hpl H hf hs h
        · simp only [declInlineD, hf]
          exact ⟨_, .ref i _ hd hf, same_refl _⟩
  | prim p =>
    rcases hm with rfl | rfl
    · exact ⟨_, .prim _ p, prim_same p⟩
    · injection hb with hb; subst hb
      exact inlineCase _ rfl (fun T hT => by cases hT; exact .prim _ _) ⟨s, runPieces_call_some.1 h⟩
  | wrap w u =>
    rcases hm with rfl | rfl
    · injection hb with hb; subst hb
      obtain ⟨T, h1, h2⟩ := H _ _ _ (Or.inl rfl) (runPieces_call_some.1 h)
      exact ⟨T, .wrap _ w u T h1, h2⟩
    · injection hb with hb; subst hb
      exact inlineCase _ rfl (fun T hT => by cases hT with | wrap _ _ _ _ h => exact .wrap _ _ _ _ h)
        ⟨s, runPieces_call_some.1 h⟩
  | option u =>
    rcases hm with rfl | rfl
    · injection hb with hb; subst hb
      obtain ⟨x, hx⟩ := runPieces_call_mem h (m := .typeDef) (t := u) (by simp)
      obtain ⟨T, h1, h2⟩ := H _ _ _ (Or.inl rfl) hx
      exact ⟨_, .option _ u T h1, same_opt true h2⟩
    · injection hb with hb; subst hb
      exact inlineCase _ rfl (fun T hT => by cases hT with | option _ _ _ h => exact .option _ _ _ h)
        ⟨s, runPieces_call_some.1 h⟩
  | vec u =>
    rcases hm with rfl | rfl
    · injection hb with hb; subst hb
      obtain ⟨x, hx⟩ := runPieces_call_mem h (m := .typeDef) (t := u) (by simp)
      obtain ⟨T, h1, h2⟩ := H _ _ _ (Or.inl rfl) hx
      exact ⟨_, .vec _ u T h1, same_array h2⟩
    · injection hb with hb; subst hb
      exact inlineCase _ rfl (fun T hT => by cases hT with | vec _ _ _ h => exact .vec _ _ _ h)
        ⟨s, runPieces_call_some.1 h⟩
  | hashSet u =>
    rcases hm with rfl | rfl
    · injection hb with hb; subst hb
      obtain ⟨x, hx⟩ := runPieces_call_mem h (m := .typeDef) (t := u) (by simp)
      obtain ⟨T, h1, h2⟩ := H _ _ _ (Or.inl rfl) hx
      exact ⟨_, .hashSet _ u T h1, same_set h2⟩
    · injection hb with hb; subst hb
      exact inlineCase _ rfl (fun T hT => by cases hT with | hashSet _ _ _ h => exact .hashSet _ _ _ h)
        ⟨s, runPieces_call_some.1 h⟩
  | hashMap k v =>
    rcases hm with rfl | rfl
    · injection hb with hb; subst hb
      obtain ⟨x, hx⟩ := runPieces_call_mem h (m := .typeDef) (t := k) (by simp)
      obtain ⟨y, hy⟩ := runPieces_call_mem h (m := .typeDef) (t := v) (by simp)
      obtain ⟨T, h1, h2⟩ := H _ _ _ (Or.inl rfl) hx
      obtain ⟨U, h3, h4⟩ := H _ _ _ (Or.inl rfl) hy
      exact ⟨_, .hashMap _ k v T U h1 h3, same_map h2 h4⟩
    · injection hb with hb; subst hb
      exact inlineCase _ rfl (fun T hT => by cases hT with | hashMap _ _ _ _ _ h h' => exact .hashMap _ _ _ _ _ h h')
        ⟨s, runPieces_call_some.1 h⟩
  | array k u =>
    rcases hm with rfl | rfl
    · injection hb with hb; subst hb
      obtain ⟨T, h1, h2⟩ := H _ _ _ (Or.inl rfl) (runPieces_call_some.1 h)
      cases h1 with
      | vec _ _ T h1 => exact ⟨_, .array _ k u T h1, h2⟩
    · injection hb with hb; subst hb
      exact inlineCase _ rfl (fun T hT => by cases hT with | array _ _ _ _ h => exact .array _ _ _ _ h)
        ⟨s, runPieces_call_some.1 h⟩
  | btreeSet u =>
    rcases hm with rfl | rfl
    · injection hb with hb; subst hb
      obtain ⟨T, h1, h2⟩ := H _ _ _ (Or.inl rfl) (runPieces_call_some.1 h)
      cases h1 with
      | hashSet _ _ T h1 => exact ⟨_, .btreeSet _ u T h1, h2⟩
    · injection hb with hb; subst hb
      exact inlineCase _ rfl (fun T hT => by cases hT with | btreeSet _ _ _ h => exact .btreeSet _ _ _ h)
        ⟨s, runPieces_call_some.1 h⟩
  | btreeMap k v =>
    rcases hm with rfl | rfl
    · injection hb with hb; subst hb
      obtain ⟨T, h1, h2⟩ := H _ _ _ (Or.inl rfl) (runPieces_call_some.1 h)
      cases h1 with
      | hashMap _ _ _ K V h1 h3 => exact ⟨_, .btreeMap _ k v K V h1 h3, h2⟩
    · injection hb with hb; subst hb
      exact inlineCase _ rfl (fun T hT => by cases hT with | btreeMap _ _ _ _ _ h h' => exact .btreeMap _ _ _ _ _ h h')
        ⟨s, runPieces_call_some.1 h⟩
  | tuple ts =>
    rcases hm with rfl | rfl
    · injection hb with hb; subst hb
      obtain ⟨Ts, hTs⟩ : ∃ Ts, All2 (fun t T => Means P false t T ∧ SameValues (ofDnf (dOf P n .typeDef t)) T) ts Ts :=
        all2_exists fun t ht => by
          obtain ⟨x, hx⟩ := runPieces_call_mem h (m := .typeDef) (t := t)
            (mem_wrap' (joinP_mem (List.mem_map.2 ⟨t, ht, rfl⟩) (List.mem_singleton.2 rfl)))
          exact H _ _ _ (Or.inl rfl) hx
      refine ⟨_, .tuple _ ts Ts (All2.length hTs) (fun i t T h1 h2 => (All2.get hTs h1 h2).1), same_tuple ?_⟩
      clear h
      induction hTs with
      | nil => exact .nil
      | cons h1 _ ih => exact .cons h1.2 ih
    · injection hb with hb; subst hb
      exact inlineCase _ rfl (fun T hT => by cases hT with | tuple _ _ _ h h' => exact .tuple _ _ _ h h')
        ⟨s, runPieces_call_some.1 h⟩
  | result u e =>
    rcases hm with rfl | rfl
    · injection hb with hb; subst hb
      obtain ⟨x, hx⟩ := runPieces_call_mem h (m := .typeDef) (t := u) (by simp)
      obtain ⟨y, hy⟩ := runPieces_call_mem h (m := .typeDef) (t := e) (by simp)
      obtain ⟨T, h1, h2⟩ := H _ _ _ (Or.inl rfl) hx
      obtain ⟨U, h3, h4⟩ := H _ _ _ (Or.inl rfl) hy
      refine ⟨_, .result _ u e T U h1 h3, same_union (.cons ?_ (.cons ?_ .nil))⟩
      · exact same_obj (.cons ⟨rfl, rfl, h2⟩ .nil)
      · exact same_obj (.cons ⟨rfl, rfl, h4⟩ .nil)
    · injection hb with hb; subst hb
      exact inlineCase _ rfl (fun T hT => by cases hT with | result _ _ _ _ _ h h' => exact .result _ _ _ _ _ h h')
        ⟨s, runPieces_call_some.1 h⟩

theorem eval_meant (hg : GoodNames P) (hgt : GoodTypeNames P) (hpl : ∀ d ∈ P, Plain d) (hw : WellStyled P)
    (hnf : NoFlattenedUnion P) (n : Nat) : Meant P (eval P n) (dOf P n) := by
  induction n with
  | zero => intro m t s _ h; cases h
  | succ n ih =>
    intro m t s hm h
    obtain ⟨ps, hb, hr⟩ := eval_succ.1 h
    rw [dOf]
    exact body_means hg hgt hpl hw hnf ih hm hb hr

end Verif.Ts
