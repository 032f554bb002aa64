import Verif.Spec.Typed
import Verif.Ts.Means
import Verif.Zod.Complete

/-!
# What serde writes is a value of the type (proof helper)
-/

namespace Verif.Ts
open Verif Verif.Js Verif.Schema Verif.SchemaSpec Verif.Spec Verif.Zod

/-! ## Bodies, with an arbitrary relation for the values in them -/

/-- What is written for some fields. -/
inductive FieldsOf (R : Ty → Json → Prop) : List Field → List (Str × Json) → Prop where
  | nil : FieldsOf R [] []
  | skip (f : Field) (fs : List Field) (kvs : List (Str × Json)) : f.skipSer = true →
      FieldsOf R fs kvs → FieldsOf R (f :: fs) kvs
  | absent (f : Field) (fs : List Field) (kvs : List (Str × Json)) (t : Ty) : f.skipSer = false →
      f.skipIfNone = true → f.ty = .option t → FieldsOf R fs kvs → FieldsOf R (f :: fs) kvs
  | omitted (f : Field) (fs : List Field) (kvs : List (Str × Json)) : f.skipSer = false → f.skipIf = true →
      FieldsOf R fs kvs → FieldsOf R (f :: fs) kvs
  | present (f : Field) (fs : List Field) (kvs : List (Str × Json)) (t : Ty) (j : Json) : f.skipSer = false →
      f.skipIfNone = true → f.ty = .option t → f.flatten = false → R t j → FieldsOf R fs kvs →
      FieldsOf R (f :: fs) ((f.serName, j) :: kvs)
  | field (f : Field) (fs : List Field) (kvs : List (Str × Json)) (j : Json) : f.skipSer = false →
      f.skipIfNone = false → f.flatten = false → R f.ty j → FieldsOf R fs kvs →
      FieldsOf R (f :: fs) ((f.serName, j) :: kvs)
  | flat (f : Field) (fs : List Field) (kvs' kvs : List (Str × Json)) : f.skipSer = false → f.flatten = true →
      R f.ty (.obj kvs') → FieldsOf R fs kvs → FieldsOf R (f :: fs) (kvs' ++ kvs)
  | flatNone (f : Field) (fs : List Field) (kvs : List (Str × Json)) (t : Ty) : f.skipSer = false →
      f.flatten = true → f.ty = .option t → FieldsOf R fs kvs → FieldsOf R (f :: fs) kvs

/-- What is written for a struct or variant. -/
inductive BodyOf (R : Ty → Json → Prop) : Style → List Field → Json → Prop where
  | newtype (f : Field) (j : Json) : R f.ty j → BodyOf R .tuple [f] j
  | tuple (fs gs : List Field) (js : List Json) : fs.length ≠ 1 → Chosen (serFields fs) gs →
      All2 R (gs.map (·.ty)) js → BodyOf R .tuple fs (.arr js)
  | named (fs : List Field) (kvs : List (Str × Json)) : FieldsOf R fs kvs → BodyOf R .named fs (.obj kvs)

section
variable {R : Ty → Json → Prop}

theorem serFields_cons (f : Field) (fs : List Field) :
    serFields (f :: fs) = if f.skipSer then serFields fs else f :: serFields fs := by
  unfold serFields
  rw [List.filter_cons]
  cases f.skipSer <;> rfl

/-- A field that is always written. -/
theorem FieldsOf.always {fs : List Field} {kvs : List (Str × Json)} (h : FieldsOf R fs kvs) {f : Field} (hf : f ∈ fs)
    (h1 : f.skipSer = false) (h2 : f.flatten = false) (h3 : f.skipIfNone = false) (h5 : f.skipIf = false) :
    ∃ j, (f.serName, j) ∈ kvs ∧ R f.ty j := by
  induction h with
  | nil => cases hf
  | skip g fs kvs hg _ ih =>
    rcases List.mem_cons.1 hf with rfl | hf
    · rw [h1] at hg; cases hg
    · exact ih hf
  | absent g fs kvs t _ hg _ _ ih =>
    rcases List.mem_cons.1 hf with rfl | hf
    · rw [h3] at hg; cases hg
    · exact ih hf
  | omitted g fs kvs _ hg _ ih =>
    rcases List.mem_cons.1 hf with rfl | hf
    · rw [h5] at hg; cases hg
    · exact ih hf
  | present g fs kvs t j _ hg _ _ _ _ ih =>
    rcases List.mem_cons.1 hf with rfl | hf
    · rw [h3] at hg; cases hg
    · obtain ⟨j, hj, hr⟩ := ih hf
      exact ⟨j, List.mem_cons_of_mem _ hj, hr⟩
  | field g fs kvs j _ _ _ hr _ ih =>
    rcases List.mem_cons.1 hf with rfl | hf
    · exact ⟨j, List.mem_cons_self, hr⟩
    · obtain ⟨j, hj, hr⟩ := ih hf
      exact ⟨j, List.mem_cons_of_mem _ hj, hr⟩
  | flat g fs kvs' kvs _ hg _ _ ih =>
    rcases List.mem_cons.1 hf with rfl | hf
    · rw [h2] at hg; cases hg
    · obtain ⟨j, hj, hr⟩ := ih hf
      exact ⟨j, List.mem_append_right _ hj, hr⟩
  | flatNone g fs kvs t _ hg _ _ ih =>
    rcases List.mem_cons.1 hf with rfl | hf
    · rw [h2] at hg; cases hg
    · exact ih hf

/-- A flattened field. -/
theorem FieldsOf.flattened {fs : List Field} {kvs : List (Str × Json)} (h : FieldsOf R fs kvs) {f : Field} (hf : f ∈ fs)
    (h1 : f.skipSer = false) (h2 : f.flatten = true) (h3 : f.skipIfNone = false) (h5 : f.skipIf = false) (h4 : ∀ t, f.ty ≠ .option t) :
    ∃ kvs', (∀ p ∈ kvs', p ∈ kvs) ∧ (kvs'.map (·.1)).Sublist (kvs.map (·.1)) ∧ R f.ty (.obj kvs') := by
  induction h with
  | nil => cases hf
  | skip g fs kvs hg _ ih =>
    rcases List.mem_cons.1 hf with rfl | hf
    · rw [h1] at hg; cases hg
    · exact ih hf
  | absent g fs kvs t _ hg _ _ ih =>
    rcases List.mem_cons.1 hf with rfl | hf
    · rw [h3] at hg; cases hg
    · exact ih hf
  | omitted g fs kvs _ hg _ ih =>
    rcases List.mem_cons.1 hf with rfl | hf
    · rw [h5] at hg; cases hg
    · exact ih hf
  | present g fs kvs t j _ hg _ _ _ _ ih =>
    rcases List.mem_cons.1 hf with rfl | hf
    · rw [h3] at hg; cases hg
    · obtain ⟨kvs', hj, hs, hr⟩ := ih hf
      exact ⟨kvs', fun p hp => List.mem_cons_of_mem _ (hj p hp), List.Sublist.cons _ hs, hr⟩
  | field g fs kvs j _ _ hg _ _ ih =>
    rcases List.mem_cons.1 hf with rfl | hf
    · rw [h2] at hg; cases hg
    · obtain ⟨kvs', hj, hs, hr⟩ := ih hf
      exact ⟨kvs', fun p hp => List.mem_cons_of_mem _ (hj p hp), List.Sublist.cons _ hs, hr⟩
  | flat g fs kvs' kvs _ hg hr _ ih =>
    rcases List.mem_cons.1 hf with rfl | hf
    · exact ⟨kvs', fun p hp => List.mem_append_left _ hp, by rw [List.map_append]; exact List.sublist_append_left _ _, hr⟩
    · obtain ⟨kvs'', hj, hs, hr⟩ := ih hf
      exact ⟨kvs'', fun p hp => List.mem_append_right _ (hj p hp),
        by rw [List.map_append]; exact hs.trans (List.sublist_append_right _ _), hr⟩
  | flatNone g fs kvs t _ _ hg _ ih =>
    rcases List.mem_cons.1 hf with rfl | hf
    · exact absurd hg (h4 t)
    · exact ih hf

/-- Without flattening, members are named like fields. -/
theorem FieldsOf.keys {fs : List Field} {kvs : List (Str × Json)} (h : FieldsOf R fs kvs)
    (hfl : ∀ f ∈ serFields fs, f.flatten = false) : ∀ k ∈ kvs.map (·.1), k ∈ (serFields fs).map (·.serName) := by
  induction h with
  | nil => simp
  | skip g fs kvs hg _ ih =>
    rw [serFields_cons, if_pos hg] at hfl ⊢
    exact ih hfl
  | absent g fs kvs t hg _ _ _ ih =>
    rw [serFields_cons, if_neg (by simp [hg])] at hfl ⊢
    exact fun k hk => List.mem_cons_of_mem _ (ih (fun f hf => hfl f (List.mem_cons_of_mem _ hf)) k hk)
  | omitted g fs kvs hg _ _ ih =>
    rw [serFields_cons, if_neg (by simp [hg])] at hfl ⊢
    exact fun k hk => List.mem_cons_of_mem _ (ih (fun f hf => hfl f (List.mem_cons_of_mem _ hf)) k hk)
  | present g fs kvs t j hg _ _ _ _ _ ih =>
    rw [serFields_cons, if_neg (by simp [hg])] at hfl ⊢
    intro k hk
    rcases List.mem_cons.1 hk with rfl | hk
    · exact List.mem_cons_self
    · exact List.mem_cons_of_mem _ (ih (fun f hf => hfl f (List.mem_cons_of_mem _ hf)) k hk)
  | field g fs kvs j hg _ _ _ _ ih =>
    rw [serFields_cons, if_neg (by simp [hg])] at hfl ⊢
    intro k hk
    rcases List.mem_cons.1 hk with rfl | hk
    · exact List.mem_cons_self
    · exact List.mem_cons_of_mem _ (ih (fun f hf => hfl f (List.mem_cons_of_mem _ hf)) k hk)
  | flat g fs kvs' kvs hg hg' _ _ _ =>
    rw [serFields_cons, if_neg (by simp [hg])] at hfl
    rw [hfl g List.mem_cons_self] at hg'; cases hg'
  | flatNone g fs kvs t hg hg' _ _ _ =>
    rw [serFields_cons, if_neg (by simp [hg])] at hfl
    rw [hfl g List.mem_cons_self] at hg'; cases hg'

/-- A field that may be left out. -/
theorem FieldsOf.maybe {fs : List Field} {kvs : List (Str × Json)} (h : FieldsOf R fs kvs) (hp : PlainNames fs)
    {f : Field} (hf : f ∈ fs) (h1 : f.skipSer = false) (h3 : f.skipIfNone = false) :
    f.serName ∉ kvs.map (·.1) ∨ ∃ j, (f.serName, j) ∈ kvs ∧ R f.ty j := by
  have away : ∀ {g : Field} {fs : List Field} {kvs : List (Str × Json)} {j : Json}, f ∈ fs →
      g.serName ∉ (serFields fs).map (·.serName) →
      (f.serName ∉ kvs.map (·.1) ∨ ∃ j, (f.serName, j) ∈ kvs ∧ R f.ty j) →
      f.serName ∉ ((g.serName, j) :: kvs).map (·.1) ∨ ∃ j', (f.serName, j') ∈ (g.serName, j) :: kvs ∧ R f.ty j' := by
    intro g fs kvs j hf hg h
    refine h.imp (fun hk hk' => ?_) (fun ⟨j, hj, hr⟩ => ⟨j, List.mem_cons_of_mem _ hj, hr⟩)
    rcases List.mem_cons.1 hk' with e | hk'
    · exact hg (show g.serName ∈ _ from (show f.serName = g.serName from e) ▸
        List.mem_map.2 ⟨f, List.mem_filter.2 ⟨hf, by simp [h1]⟩, rfl⟩)
    · exact hk hk'
  induction h with
  | nil => cases hf
  | skip g fs kvs hg _ ih =>
    unfold PlainNames at hp
    rw [serFields_cons, if_pos hg] at hp
    rcases List.mem_cons.1 hf with rfl | hf
    · rw [h1] at hg; cases hg
    · exact ih hp hf
  | absent g fs kvs t hg hi hty hrest ih =>
    unfold PlainNames at hp
    rw [serFields_cons, if_neg (by simp [hg]), List.map_cons, List.nodup_cons] at hp
    have hp' : PlainNames fs := ⟨hp.1.2, fun g hg => hp.2 g (List.mem_cons_of_mem _ hg)⟩
    rcases List.mem_cons.1 hf with rfl | hf
    · rw [h3] at hi; cases hi
    · exact ih hp' hf
  | omitted g fs kvs hg hi hrest ih =>
    unfold PlainNames at hp
    rw [serFields_cons, if_neg (by simp [hg]), List.map_cons, List.nodup_cons] at hp
    have hp' : PlainNames fs := ⟨hp.1.2, fun g hg => hp.2 g (List.mem_cons_of_mem _ hg)⟩
    rcases List.mem_cons.1 hf with rfl | hf
    · exact Or.inl fun hk => hp.1.1 (hrest.keys hp'.2 _ hk)
    · exact ih hp' hf
  | present g fs kvs t j hg hi hty _ hr _ ih =>
    unfold PlainNames at hp
    rw [serFields_cons, if_neg (by simp [hg]), List.map_cons, List.nodup_cons] at hp
    have hp' : PlainNames fs := ⟨hp.1.2, fun g hg => hp.2 g (List.mem_cons_of_mem _ hg)⟩
    rcases List.mem_cons.1 hf with rfl | hf
    · rw [h3] at hi; cases hi
    · exact away hf hp.1.1 (ih hp' hf)
  | field g fs kvs j hg hg' _ hr _ ih =>
    unfold PlainNames at hp
    rw [serFields_cons, if_neg (by simp [hg]), List.map_cons, List.nodup_cons] at hp
    have hp' : PlainNames fs := ⟨hp.1.2, fun g hg => hp.2 g (List.mem_cons_of_mem _ hg)⟩
    rcases List.mem_cons.1 hf with rfl | hf
    · exact Or.inr ⟨j, List.mem_cons_self, hr⟩
    · exact away hf hp.1.1 (ih hp' hf)
  | flat g fs kvs' kvs hg hg' _ _ _ =>
    have := hp.2 g (by rw [serFields_cons, if_neg (by simp [hg])]; exact List.mem_cons_self)
    rw [this] at hg'; cases hg'
  | flatNone g fs kvs t hg hg' _ _ _ =>
    have := hp.2 g (by rw [serFields_cons, if_neg (by simp [hg])]; exact List.mem_cons_self)
    rw [this] at hg'; cases hg'

/-- A field that is left out when it is `None`. -/
theorem FieldsOf.optional {fs : List Field} {kvs : List (Str × Json)} (h : FieldsOf R fs kvs) (hp : PlainNames fs)
    {f : Field} (hf : f ∈ fs) (h1 : f.skipSer = false) (h3 : f.skipIfNone = true) (h5 : f.skipIf = false) :
    ∃ t, f.ty = .option t ∧ (f.serName ∉ kvs.map (·.1) ∨ ∃ j, (f.serName, j) ∈ kvs ∧ R t j) := by
  induction h with
  | nil => cases hf
  | skip g fs kvs hg _ ih =>
    unfold PlainNames at hp
    rw [serFields_cons, if_pos hg] at hp
    rcases List.mem_cons.1 hf with rfl | hf
    · rw [h1] at hg; cases hg
    · exact ih hp hf
  | absent g fs kvs t hg _ hty hrest ih =>
    unfold PlainNames at hp
    rw [serFields_cons, if_neg (by simp [hg]), List.map_cons, List.nodup_cons] at hp
    have hp' : PlainNames fs := ⟨hp.1.2, fun g hg => hp.2 g (List.mem_cons_of_mem _ hg)⟩
    rcases List.mem_cons.1 hf with rfl | hf
    · exact ⟨t, hty, Or.inl fun hk => hp.1.1 (hrest.keys hp'.2 _ hk)⟩
    · exact ih hp' hf
  | omitted g fs kvs hg hi hrest ih =>
    unfold PlainNames at hp
    rw [serFields_cons, if_neg (by simp [hg]), List.map_cons, List.nodup_cons] at hp
    have hp' : PlainNames fs := ⟨hp.1.2, fun g hg => hp.2 g (List.mem_cons_of_mem _ hg)⟩
    rcases List.mem_cons.1 hf with rfl | hf
    · rw [h5] at hi; cases hi
    · exact ih hp' hf
  | present g fs kvs t j hg _ hty _ hr _ ih =>
    unfold PlainNames at hp
    rw [serFields_cons, if_neg (by simp [hg]), List.map_cons, List.nodup_cons] at hp
    have hp' : PlainNames fs := ⟨hp.1.2, fun g hg => hp.2 g (List.mem_cons_of_mem _ hg)⟩
    rcases List.mem_cons.1 hf with rfl | hf
    · exact ⟨t, hty, Or.inr ⟨j, List.mem_cons_self, hr⟩⟩
    · obtain ⟨u, hu, h⟩ := ih hp' hf
      refine ⟨u, hu, h.imp (fun hk hk' => ?_) (fun ⟨j, hj, hr⟩ => ⟨j, List.mem_cons_of_mem _ hj, hr⟩)⟩
      rcases List.mem_cons.1 hk' with e | hk'
      · exact hp.1.1 (show g.serName ∈ _ from (show f.serName = g.serName from e) ▸
          List.mem_map.2 ⟨f, List.mem_filter.2 ⟨hf, by simp [h1]⟩, rfl⟩)
      · exact hk hk'
  | field g fs kvs j hg hg' _ hr _ ih =>
    unfold PlainNames at hp
    rw [serFields_cons, if_neg (by simp [hg]), List.map_cons, List.nodup_cons] at hp
    have hp' : PlainNames fs := ⟨hp.1.2, fun g hg => hp.2 g (List.mem_cons_of_mem _ hg)⟩
    rcases List.mem_cons.1 hf with rfl | hf
    · rw [h3] at hg'; cases hg'
    · obtain ⟨u, hu, h⟩ := ih hp' hf
      refine ⟨u, hu, h.imp (fun hk hk' => ?_) (fun ⟨j, hj, hr⟩ => ⟨j, List.mem_cons_of_mem _ hj, hr⟩)⟩
      rcases List.mem_cons.1 hk' with e | hk'
      · exact hp.1.1 (show g.serName ∈ _ from (show f.serName = g.serName from e) ▸
          List.mem_map.2 ⟨f, List.mem_filter.2 ⟨hf, by simp [h1]⟩, rfl⟩)
      · exact hk hk'
  | flat g fs kvs' kvs hg hg' _ _ _ =>
    have := hp.2 g (by rw [serFields_cons, if_neg (by simp [hg])]; exact List.mem_cons_self)
    rw [this] at hg'; cases hg'
  | flatNone g fs kvs t hg hg' _ _ _ =>
    have := hp.2 g (by rw [serFields_cons, if_neg (by simp [hg])]; exact List.mem_cons_self)
    rw [this] at hg'; cases hg'

end

/-! ## Views: the value, or one with more members -/

/-- The object has the members of the document (and, if `only`, no others). -/
def Sees (only : Bool) (kvs : List (Str × Json)) (v : JsVal) : Prop :=
  ∃ o, v = .obj o ∧ (∀ p ∈ kvs, objHas o p.1 = true ∧ objGet o p.1 = fromJson p.2) ∧
    (only = true → ∀ k, k ∉ kvs.map (·.1) → objHas o k = false)

/-- The value of the document or, for types that are solid, one with additional members. -/
def Views (P : Program) (t : Ty) (j : Json) (v : JsVal) : Prop :=
  v = fromJson j ∨ (Solid P t ∧ ∃ kvs, j = .obj kvs ∧ Sees false kvs v)

theorem objHas_json (kvs : List (Str × Json)) (k : Str) :
    objHas (kvs.map (fun p => (p.1, fromJson p.2))) k = true ↔ k ∈ kvs.map (·.1) := by
  unfold objHas
  rw [List.any_eq_true]
  constructor
  · rintro ⟨p, hp, e⟩
    obtain ⟨q, hq, rfl⟩ := List.mem_map.1 hp
    exact List.mem_map.2 ⟨q, hq, by simpa using e⟩
  · intro h
    obtain ⟨q, hq, rfl⟩ := List.mem_map.1 h
    exact ⟨_, List.mem_map.2 ⟨q, hq, rfl⟩, by simp⟩

theorem jget_mem {kvs : List (Str × Json)} (hn : (kvs.map (·.1)).Nodup) {p : Str × Json} (hp : p ∈ kvs) :
    jget kvs p.1 = some p.2 := by
  induction kvs with
  | nil => cases hp
  | cons q kvs ih =>
    obtain ⟨k, j⟩ := q
    rw [List.map_cons, List.nodup_cons] at hn
    rw [jget_cons]
    rcases List.mem_cons.1 hp with rfl | hp
    · rw [if_pos rfl]
    · rw [if_neg (fun e => hn.1 (List.mem_map.2 ⟨p, hp, e.symm⟩))]
      exact ih hn.2 hp

theorem sees_json {kvs : List (Str × Json)} (hn : (kvs.map (·.1)).Nodup) : Sees true kvs (fromJson (.obj kvs)) := by
  rw [fromJson_obj]
  refine ⟨_, rfl, fun p hp => ⟨(objHas_json _ _).2 (List.mem_map.2 ⟨p, hp, rfl⟩), ?_⟩, fun _ k hk => ?_⟩
  · rw [objGet_json, jget_mem hn hp]; rfl
  · cases h : objHas (kvs.map (fun p => (p.1, fromJson p.2))) k with
    | false => rfl
    | true => exact absurd ((objHas_json _ _).1 h) hk

/-- Fewer members. -/
theorem Sees.sub {only : Bool} {kvs kvs' : List (Str × Json)} {v : JsVal} (h : Sees only kvs v)
    (hs : ∀ p ∈ kvs', p ∈ kvs) : Sees false kvs' v := by
  obtain ⟨o, rfl, h1, _⟩ := h
  exact ⟨o, rfl, fun p hp => h1 p (hs p hp), fun h => by cases h⟩

theorem views_obj {P : Program} {t : Ty} {kvs : List (Str × Json)} {v : JsVal} (hd : DistinctKeys (.obj kvs))
    (h : Views P t (.obj kvs) v) : Sees true kvs v ∨ (Solid P t ∧ Sees false kvs v) := by
  cases hd with
  | obj _ hn _ =>
    rcases h with rfl | ⟨hs, kvs', e, h⟩
    · exact Or.inl (sees_json hn)
    · injection e with e; subst e; exact Or.inr ⟨hs, h⟩

/-- Not an object. -/
theorem views_eq {P : Program} {t : Ty} {j : Json} {v : JsVal} (h : Views P t j v) (hj : ∀ kvs, j ≠ .obj kvs) :
    v = fromJson j := by
  rcases h with rfl | ⟨_, kvs, e, _⟩
  · rfl
  · exact absurd e (hj kvs)

/-- An object with given properties. -/
theorem inhabits_sees {D : TsEnv} {len only : Bool} {kvs : List (Str × Json)} {v : JsVal} (h : Sees only kvs v)
    {ps : List (Str × Bool × TsType)}
    (hps : ∀ p ∈ ps, (∃ j, (p.1, j) ∈ kvs ∧ Inhabits D len p.2.2 (fromJson j)) ∨
      (only = true ∧ p.1 ∉ kvs.map (·.1) ∧ (p.2.1 = true ∨ (len = true ∧ Inhabits D len p.2.2 .undefined)))) :
    Inhabits D len (.obj ps) v := by
  obtain ⟨o, rfl, h1, h2⟩ := h
  rw [inhabits_obj]
  refine ⟨o, rfl, fun p hp => ?_⟩
  rcases hps p hp with ⟨j, hj, hi⟩ | ⟨ho, hk, hopt⟩
  · obtain ⟨ha, hb⟩ := h1 _ hj
    refine ⟨fun _ => by rw [hb]; exact hi, fun h => ?_⟩
    have ha : objHas o p.1 = true := ha
    rw [ha] at h; cases h
  · have := h2 ho _ hk
    refine ⟨fun h => ?_, fun _ hf => ?_⟩
    · rw [this] at h; cases h
    · rcases hopt with h | h
      · rw [hf] at h; cases h
      · exact h

/-! ## The claim -/

section
variable {P : Program} {odd len : Bool} {D : TsEnv}

/-- Everything that represents the document is a value of the type. -/
def Good (P : Program) (odd len : Bool) (D : TsEnv) (t : Ty) (j : Json) : Prop :=
  Typed odd t → DistinctKeys j → ∀ v, Views P t j v → ∀ use T, Means P use t T → Inhabits D len T v

theorem Good.self {t : Ty} {j : Json} (h : Good P odd len D t j) (ht : Typed odd t) (hd : DistinctKeys j) {use : Bool}
    {T : TsType} (hM : Means P use t T) : Inhabits D len T (fromJson j) := h ht hd _ (Or.inl rfl) use T hM

theorem zipWith_get {α β γ : Type} {f : α → β → γ} {l : List α} {r : List β} {c : γ} (h : c ∈ List.zipWith f l r) :
    ∃ (i : Nat) (a : α) (b : β), l[i]? = some a ∧ r[i]? = some b ∧ c = f a b := by
  induction l generalizing r with
  | nil => simp at h
  | cons a l ih =>
    cases r with
    | nil => simp at h
    | cons b r =>
      rw [List.zipWith_cons_cons] at h
      rcases List.mem_cons.1 h with rfl | h
      · exact ⟨0, a, b, rfl, rfl, rfl⟩
      · obtain ⟨i, a', b', h1, h2, h3⟩ := ih h
        exact ⟨i + 1, a', b', h1, h2, h3⟩

theorem inhabits_orUndefined {b : Bool} {T : TsType} {v : JsVal} (h : Inhabits D len T v) :
    Inhabits D len (orUndefined b T) v := by
  cases b
  · exact h
  · exact .union _ T _ List.mem_cons_self h

theorem undef_orUndefined {T : TsType} : Inhabits D len (orUndefined true T) .undefined :=
  .union _ undefinedT _ (List.mem_cons_of_mem _ List.mem_cons_self) .undefined

theorem typed_not_option {t : Ty} (h : Typed odd t) : ∀ u, t ≠ .option u := by
  rintro u rfl; cases h

/-- The properties for named fields, in an object that may have more members. `solid`: the document may be
seen with more members. -/
theorem props_good {fs kept : List Field} {kvs kvs0 : List (Str × Json)} {only : Bool}
    (h : FieldsOf (Good P odd len D) fs kvs0) (hsub : ∀ p ∈ kvs0, p ∈ kvs)
    (hkeys : ∀ k, k ∉ kvs0.map (·.1) → k ∈ (keptFields fs).map (·.name) → k ∉ kvs.map (·.1))
    (hd : DistinctKeys (.obj kvs)) (ht : TypedFields P odd len .named fs)
    (ho : only = true ∨ AlwaysWritten fs) (hk : ∀ f ∈ kept, f ∈ keptFields fs ∧ f.flatten = false)
    {Ts : List TsType}
    (hT : ∀ (i : Nat) f T, kept[i]? = some f → Ts[i]? = some T → Means P true f.ty T) :
    ∀ p ∈ propsT kept Ts, (∃ j, (p.1, j) ∈ kvs ∧ Inhabits D len p.2.2 (fromJson j)) ∨
      (only = true ∧ p.1 ∉ kvs.map (·.1) ∧ (p.2.1 = true ∨ (len = true ∧ Inhabits D len p.2.2 .undefined))) := by
  intro p hp
  obtain ⟨i, f, T, h1, h2, rfl⟩ := zipWith_get hp
  obtain ⟨hfk, hfl⟩ := hk f (List.mem_of_getElem? h1)
  have hM := hT i f T h1 h2
  have hff := (List.mem_filter.1 hfk).1
  have hname : f.name ∈ (keptFields fs).map (·.name) := List.mem_map.2 ⟨f, hfk, rfl⟩
  have hdm : ∀ p ∈ kvs, DistinctKeys p.2 := by cases hd with | obj _ _ h => exact h
  rcases ht f hfk with ⟨c1, _, c3, c4, c5⟩ | ⟨c1, _, c3, c4, c9, c5⟩ | ⟨c1, _, c3, c4, c9, ⟨t, c5, c6⟩, c7, c8⟩ |
    ⟨c1, _, c3, c4, c9, c5, c7, c8⟩ | ⟨_, c2, _⟩
  · rcases ho with ho | ho
    · exact Or.inr ⟨ho, hkeys _ (fun hk => c5 (h.keys c4.2 _ hk)) hname, Or.inl c3⟩
    · rw [(ho f hfk).1] at c1; cases c1
  · obtain ⟨j, hj, hg⟩ := h.always hff c1 hfl c4 c9
    rw [c3] at hj
    exact Or.inl ⟨j, hsub _ hj, inhabits_orUndefined (hg.self c5 (hdm _ (hsub _ hj)) hM)⟩
  · obtain ⟨u, hu, hj⟩ := h.optional c8 hff c1 c4 c9
    rw [c5] at hu
    injection hu with hu
    subst hu
    rw [c5] at hM
    cases hM with
    | option _ _ U hU =>
    rcases hj with hj | ⟨j, hj, hg⟩
    · rcases ho with ho | ho
      · rw [c3] at hj
        refine Or.inr ⟨ho, hkeys _ hj hname, c7.imp id fun h => ⟨h, ?_⟩⟩
        exact inhabits_orUndefined (.union _ undefinedT _ (List.mem_cons_of_mem _ List.mem_cons_self) .undefined)
      · rw [(ho f hfk).2.1] at c4; cases c4
    · rw [c3] at hj
      refine Or.inl ⟨j, hsub _ hj, inhabits_orUndefined (.union _ U _ List.mem_cons_self ?_)⟩
      exact hg.self c6 (hdm _ (hsub _ hj)) hU
  · rcases h.maybe c8 hff c1 c4 with hj | ⟨j, hj, hg⟩
    · rcases ho with ho | ho
      · rw [c3] at hj
        exact Or.inr ⟨ho, hkeys _ hj hname, Or.inl c7⟩
      · rw [(ho f hfk).2.2] at c9; cases c9
    · rw [c3] at hj
      exact Or.inl ⟨j, hsub _ hj, inhabits_orUndefined (hg.self c5 (hdm _ (hsub _ hj)) hM)⟩
  · rw [hfl] at c2; cases c2

/-- The elements for unnamed fields. -/
theorem tuple_good {fs gs : List Field} {js : List Json} (hch : Chosen (serFields fs) gs)
    (h : All2 (Good P odd len D) (gs.map (·.ty)) js)
    (hd : DistinctKeys (.arr js)) (ht : TypedFields P odd len .tuple fs) (hl : fs.length ≠ 1) {Ts : List TsType}
    (hlen : (keptFields fs).length = Ts.length)
    (hT : ∀ (i : Nat) f T, (keptFields fs)[i]? = some f → Ts[i]? = some T → Means P true f.ty T) :
    2 ≤ (keptFields fs).length ∧ Inhabits D len (.tuple (elemsT (keptFields fs) Ts)) (fromJson (.arr js)) := by
  obtain ⟨hlen0, hsk, htys⟩ := ht
  have h2 : 2 ≤ (keptFields fs).length := by
    rcases hlen0 with ⟨h, _⟩ | ⟨_, h⟩
    · exact absurd h hl
    · exact h
  refine ⟨h2, ?_⟩
  have he : serFields fs = keptFields fs := by
    unfold serFields keptFields
    apply List.filter_congr
    intro f hf
    rw [hsk f hf]
  rw [he] at hch
  have hgs := chosen_all hch fun f hf => ⟨(htys f hf).2 hl, typed_not_option (htys f hf).1⟩
  subst hgs
  replace htys := fun f hf => (htys f hf).1
  rw [fromJson_arr]
  have hjl := All2.length h
  rw [List.length_map] at hjl
  refine .tuple _ _ (by simp only [List.length_map, elemsT, List.length_zipWith]; omega) fun i t x hi hx => ?_
  have hd' : ∀ j ∈ js, DistinctKeys j := by cases hd with | arr _ h => exact h
  unfold elemsT at hi
  rw [List.getElem?_zipWith] at hi
  cases hf : (keptFields fs)[i]? with
  | none => rw [hf] at hi; cases hi
  | some f =>
  cases hTi : Ts[i]? with
  | none => rw [hf, hTi] at hi; cases hi
  | some T =>
  rw [hf, hTi] at hi
  injection hi with hi
  subst hi
  rw [List.getElem?_map] at hx
  cases hji : js[i]? with
  | none => rw [hji] at hx; cases hx
  | some j =>
  rw [hji] at hx
  injection hx with hx
  subst hx
  have := All2.get h (i := i) (a := f.ty) (b := j) (by rw [List.getElem?_map, hf]; rfl) hji
  exact inhabits_orUndefined (this.self (htys f (List.mem_of_getElem? hf)) (hd' j (List.mem_of_getElem? hji))
    (hT i f T hf hTi))

/-- The declared types. -/
def Declared (P : Program) (D : TsEnv) : Prop :=
  ∀ i d, P[i]? = some d → NoFrom d → ∃ T0 T, D d.ns d.name = some T0 ∧ Means P false (.named i) T ∧ SameValues T0 T

/-- A reference has the values of the definition. -/
theorem good_of_def (hD : Declared P D) {i : Nat} {d : Decl} (hi : P[i]? = some d) (hn : NoFrom d) {v : JsVal}
    (h : ∀ T, Means P false (.named i) T → Inhabits D len T v) (use : Bool) (T : TsType) (hM : Means P use (.named i) T) :
    Inhabits D len T v := by
  cases use with
  | false => exact h T hM
  | true =>
    cases hM with
    | ref _ d' hi' _ =>
      rw [hi] at hi'; injection hi' with hi'; subst hi'
      obtain ⟨T0, T, h1, h2, h3⟩ := hD i d hi hn
      exact .ref _ _ T0 _ h1 ((h3 D len v).2 (h T h2))
    | structFrom _ _ s t _ hi' hf =>
      rw [hi] at hi'; injection hi' with hi'; subst hi'
      rw [show s.from_.ty? = none from hn] at hf; cases hf
    | enumFrom _ _ e t _ hi' hf =>
      rw [hi] at hi'; injection hi' with hi'; subst hi'
      rw [show e.from_.ty? = none from hn] at hf; cases hf

/-- A struct that is not converted. -/
theorem struct_good {i : Nat} {s : StructDecl} {j : Json} (hi : P[i]? = some (.struct s))
    (hinto : s.into = none) (hf : s.from_.ty? = none) (htr : s.transparent = false)
    (ht : TypedFields P odd len s.style s.fields) (h : BodyOf (Good P odd len D) s.style s.fields j)
    (hd : DistinctKeys j) (v : JsVal) (hv : Views P (.named i) j v) (T : TsType) (hM : Means P false (.named i) T) :
    Inhabits D len T v := by
  have eqd : ∀ s', P[i]? = some (.struct s') → s' = s := by
    intro s' h; rw [hi] at h; injection h with h; injection h with h; exact h.symm
  have noenum : ∀ e, P[i]? = some (.enum e) → False := by
    intro e h; rw [hi] at h; cases h
  cases hst : s.style with
  | unit => rw [hst] at h; cases h
  | tuple =>
    rw [hst] at h ht
    generalize hfs : s.fields = fs at h ht
    cases h with
    | newtype f _ hg =>
      obtain ⟨hl, _, htys⟩ := ht
      have hk : keptFields [f] = [f] := by
        cases hk : f.skipDe with
        | false => simp [keptFields, hk]
        | true => simp [keptFields, hk] at hl
      rw [hk] at htys
      have htf := (htys f List.mem_cons_self).1
      cases hM with
      | structFrom _ _ s' t _ hi' hf' => cases eqd _ hi'; rw [hf] at hf'; cases hf'
      | enumFrom _ _ e t _ hi' => exact (noenum _ hi').elim
      | enum _ e _ hi' => exact (noenum _ hi').elim
      | newtype _ s' f' T hi' _ _ hk' hM =>
        cases eqd _ hi'
        rw [hfs, hk] at hk'
        injection hk' with hk' _
        subst hk'
        refine inhabits_orUndefined (hg htf hd v ?_ _ _ hM)
        rcases hv with hv | ⟨hs, hv⟩
        · exact Or.inl hv
        · refine Or.inr ⟨?_, hv⟩
          cases hs with
          | into _ d t hi' ht' => rw [hi] at hi'; injection hi' with hi'; subst hi'; rw [show Decl.into (.struct s) = s.into from rfl, hinto] at ht'; cases ht'
          | newtype _ s' f' hi' _ _ hk' hs => cases eqd _ hi'; rw [hfs, hk] at hk'; injection hk' with hk' _; subst hk'; exact hs
          | struct _ s' hi' _ _ hst' => cases eqd _ hi'; rw [hst] at hst'; cases hst'
          | enum _ _ hi' => exact (noenum _ hi').elim
      | tupleStruct _ s' Ts hi' _ _ _ hlen => cases eqd _ hi'; rw [hfs, hk] at hlen; simp at hlen
      | namedStruct _ s' _ _ hi' _ _ hst' => cases eqd _ hi'; rw [hst] at hst'; cases hst'
    | tuple _ gs js hl hch hg =>
      have hv := views_eq hv (fun kvs => by rintro ⟨⟩)
      subst hv
      cases hM with
      | structFrom _ _ s' t _ hi' hf' => cases eqd _ hi'; rw [hf] at hf'; cases hf'
      | enumFrom _ _ e t _ hi' => exact (noenum _ hi').elim
      | enum _ e _ hi' => exact (noenum _ hi').elim
      | newtype _ s' f' T hi' _ _ hk' hM =>
        cases eqd _ hi'
        rw [hfs] at hk'
        obtain ⟨hlen, _⟩ := ht
        rw [hk'] at hlen
        rcases hlen with ⟨h, _⟩ | ⟨_, h⟩
        · exact absurd h hl
        · simp at h
      | tupleStruct _ s' Ts hi' _ _ _ _ hlen hT =>
        cases eqd _ hi'
        rw [hfs] at hlen hT ⊢
        exact (tuple_good hch hg hd ht hl hlen hT).2
      | namedStruct _ s' _ _ hi' _ _ hst' => cases eqd _ hi'; rw [hst] at hst'; cases hst'
  | named =>
    rw [hst] at h ht
    generalize hfs : s.fields = fs at h ht
    cases h with
    | named _ kvs hg =>
      cases hM with
      | structFrom _ _ s' t _ hi' hf' => cases eqd _ hi'; rw [hf] at hf'; cases hf'
      | enumFrom _ _ e t _ hi' => exact (noenum _ hi').elim
      | enum _ e _ hi' => exact (noenum _ hi').elim
      | newtype _ s' f' T hi' _ hor =>
        cases eqd _ hi'
        rcases hor with h | h
        · rw [htr] at h; cases h
        · rw [hst] at h; cases h
      | tupleStruct _ s' Ts hi' _ _ hst' => cases eqd _ hi'; rw [hst] at hst'; cases hst'
      | namedStruct _ s' Ts Us hi' _ _ _ hl1 hT hl2 hU =>
        cases eqd _ hi'
        rw [hfs] at hl1 hT hl2 hU ⊢
        have hsees : ∃ only, Sees only kvs v ∧ (only = true ∨ AlwaysWritten fs) := by
          rcases views_obj hd hv with h | ⟨hs, h⟩
          · exact ⟨true, h, Or.inl rfl⟩
          · refine ⟨false, h, Or.inr ?_⟩
            cases hs with
            | into _ d t hi' ht' => rw [hi] at hi'; injection hi' with hi'; subst hi'; rw [show Decl.into (.struct s) = s.into from rfl, hinto] at ht'; cases ht'
            | newtype _ s' f' hi' _ hor =>
              cases eqd _ hi'
              rcases hor with h | h
              · rw [htr] at h; cases h
              · rw [hst] at h; cases h
            | struct _ s' hi' _ _ _ ha => cases eqd _ hi'; rw [hfs] at ha; exact ha
            | enum _ _ hi' => exact (noenum _ hi').elim
        obtain ⟨only, hsee, ho⟩ := hsees
        rw [inhabits_inter]
        intro T hTm
        rcases List.mem_cons.1 hTm with rfl | hTm
        · refine inhabits_sees hsee (props_good hg (fun p hp => hp) (fun k hk _ => hk) hd ht ho ?_ hT)
          intro f hf
          exact ⟨(List.mem_filter.1 hf).1, by simpa using (List.mem_filter.1 hf).2⟩
        · obtain ⟨k, f, U, h1, h2, rfl⟩ := zipWith_get hTm
          have hfm := List.mem_filter.1 (List.mem_of_getElem? h1)
          have hfl : f.flatten = true := by simpa using hfm.2
          rcases ht f hfm.1 with ⟨_, c, _⟩ | ⟨_, c, _⟩ | ⟨_, c, _⟩ | ⟨_, c, _⟩ | ⟨c1, _, c3, c6, c4, c5⟩
          · rw [hfl] at c; cases c
          · rw [hfl] at c; cases c
          · rw [hfl] at c; cases c
          · rw [hfl] at c; cases c
          · obtain ⟨kvs', hsub, hsl, hgd⟩ := hg.flattened (List.mem_filter.1 hfm.1).1 c1 hfl c3 c6 (typed_not_option c4)
            have hd' : DistinctKeys (.obj kvs') := by
              cases hd with
              | obj _ hn hm => exact .obj _ (hn.sublist hsl) fun p hp => hm p (hsub p hp)
            exact inhabits_orUndefined (hgd c4 hd' v (Or.inr ⟨c5, kvs', rfl, hsee.sub hsub⟩) _ _ (hU k f U h1 h2))

/-! ## Enums -/

/-- The fields of a variant. -/
def bodyT (v : Variant) (Ts : List TsType) : TsType :=
  match v.style with
  | .named => .obj (propsT (keptFields v.fields) Ts)
  | _ => payloadT (keptFields v.fields) Ts

/-- The variant can be seen with more members. -/
def SolidBody (P : Program) (v : Variant) : Prop :=
  (v.style = .named → AlwaysWritten v.fields) ∧ (v.style = .tuple → ∀ f, keptFields v.fields = [f] → Solid P f.ty)

theorem body_good {w : Variant} {j : Json} (h : BodyOf (Good P odd len D) w.style w.fields j) (hd : DistinctKeys j)
    (ht : TypedFields P odd len w.style w.fields) (hfl : ∀ f ∈ w.fields, f.flatten = false) (v : JsVal)
    (hv : v = fromJson j ∨ (SolidBody P w ∧ ∃ kvs, j = .obj kvs ∧ Sees false kvs v)) {Ts : List TsType}
    (hlen : (keptFields w.fields).length = Ts.length)
    (hT : ∀ (k : Nat) f T, (keptFields w.fields)[k]? = some f → Ts[k]? = some T → Means P true f.ty T) :
    Inhabits D len (bodyT w Ts) v := by
  unfold bodyT
  cases hst : w.style with
  | unit => rw [hst] at h; cases h
  | tuple =>
    simp only
    rw [hst] at h ht
    generalize hfs : w.fields = fs at h ht hlen hT
    cases h with
    | newtype f _ hg =>
      obtain ⟨hl, _, htys⟩ := ht
      have hk : keptFields [f] = [f] := by
        cases hk : f.skipDe with
        | false => simp [keptFields, hk]
        | true => simp [keptFields, hk] at hl
      rw [hk] at htys hlen hT ⊢
      cases Ts with
      | nil => simp at hlen
      | cons T Ts =>
        cases Ts with
        | cons _ _ => simp at hlen
        | nil =>
          show Inhabits D len (orUndefined f.dflt T) v
          refine inhabits_orUndefined (hg ((htys f List.mem_cons_self).1) hd v ?_ _ _ (hT 0 f T rfl rfl))
          rcases hv with hv | ⟨hs, hv⟩
          · exact Or.inl hv
          · exact Or.inr ⟨hs.2 hst f (by rw [hfs]; exact hk), hv⟩
    | tuple _ gs js hl hch hg =>
      have hv : v = fromJson (.arr js) := by
        rcases hv with hv | ⟨_, kvs, e, _⟩
        · exact hv
        · cases e
      subst hv
      obtain ⟨h2, hi⟩ := tuple_good hch hg hd ht hl hlen hT
      unfold payloadT
      have : (elemsT (keptFields fs) Ts).length = (keptFields fs).length := by
        unfold elemsT; rw [List.length_zipWith]; omega
      split
      · rename_i heq
        rw [heq] at this
        simp at this
        omega
      · exact hi
  | named =>
    simp only
    rw [hst] at h ht
    generalize hfs : w.fields = fs at h ht hlen hT hfl
    cases h with
    | named _ kvs hg =>
      have hsees : ∃ only, Sees only kvs v ∧ (only = true ∨ AlwaysWritten fs) := by
        rcases hv with rfl | ⟨hs, kvs', e, h⟩
        · cases hd with
          | obj _ hn _ => exact ⟨true, sees_json hn, Or.inl rfl⟩
        · injection e with e; subst e
          exact ⟨false, h, Or.inr (hfs ▸ hs.1 hst)⟩
      obtain ⟨only, hsee, ho⟩ := hsees
      exact inhabits_sees hsee (props_good hg (fun p hp => hp) (fun k hk _ => hk) hd ht ho
        (fun f hf => ⟨hf, hfl f (List.mem_filter.1 hf).1⟩) hT)

theorem kept_get {e : EnumDecl} {w : Variant} (hw : w ∈ e.variants) (h : w.skipDe = false) {Tss : List (List TsType)}
    (hlen : e.kept.length = Tss.length) : ∃ (k : Nat) (Ts : List TsType), e.kept[k]? = some w ∧ Tss[k]? = some Ts := by
  have : w ∈ e.kept := List.mem_filter.2 ⟨hw, by simp [h]⟩
  obtain ⟨k, hk⟩ := List.mem_iff_getElem?.1 this
  have : k < Tss.length := by
    rw [← hlen]
    exact (List.getElem?_eq_some_iff.1 hk).1
  exact ⟨k, Tss[k], hk, List.getElem?_eq_getElem this⟩

/-- A value of a variant's type is a value of the enum. -/
theorem enum_good {i : Nat} {e : EnumDecl} {w : Variant} (hi : P[i]? = some (.enum e)) (hf : e.from_.ty? = none)
    (hw : w ∈ e.variants) (hs : w.skipDe = false) {v : JsVal}
    (h : ∀ Ts, (keptFields w.fields).length = Ts.length →
      (∀ (k : Nat) f T, (keptFields w.fields)[k]? = some f → Ts[k]? = some T → Means P true f.ty T) →
      Inhabits D len (variantT e.tag w (keptFields w.fields) Ts) v)
    (T : TsType) (hM : Means P false (.named i) T) : Inhabits D len T v := by
  have eqd : ∀ e', P[i]? = some (.enum e') → e' = e := by
    intro s' h; rw [hi] at h; injection h with h; injection h with h; exact h.symm
  have nostruct : ∀ s, P[i]? = some (.struct s) → False := by
    intro e h; rw [hi] at h; cases h
  cases hM with
  | structFrom _ _ s' t _ hi' hf' => exact (nostruct _ hi').elim
  | newtype _ s' f' T hi' => exact (nostruct _ hi').elim
  | tupleStruct _ s' Ts hi' => exact (nostruct _ hi').elim
  | namedStruct _ s' Ts Us hi' => exact (nostruct _ hi').elim
  | enumFrom _ _ e' t _ hi' hf' => cases eqd _ hi'; rw [hf] at hf'; cases hf'
  | enum _ e' Tss hi' _ hlen hl hT =>
    cases eqd _ hi'
    obtain ⟨k, Ts, hk, hTs⟩ := kept_get hw hs hlen
    refine .union _ (variantT e.tag w (keptFields w.fields) Ts) _ ?_ (h Ts (hl k w Ts hk hTs) (hT k w Ts hk hTs))
    refine List.mem_iff_getElem?.2 ⟨k, ?_⟩
    rw [List.getElem?_zipWith, hk, hTs]

/-- The type of a variant that is not a unit. -/
theorem variantT_eq {tag : Tag} {w : Variant} {Ts : List TsType} (hst : w.style ≠ .unit)
    (hk : w.style = .tuple → keptFields w.fields ≠ []) (hin : ∀ t, tag = .internal t → w.style ≠ .tuple) :
    variantT tag w (keptFields w.fields) Ts = match (generalizing := false) tag with
      | .external => .obj [(w.name, false, bodyT w Ts)]
      | .internal t => .obj ((t, false, .str w.name) :: propsT (keptFields w.fields) Ts)
      | .adjacent t c => .obj [(t, false, .str w.name), (c, false, bodyT w Ts)]
      | .untagged => bodyT w Ts := by
  have hb : bodyT w Ts = match w.style with
      | .named => .obj (propsT (keptFields w.fields) Ts)
      | _ => payloadT (keptFields w.fields) Ts := rfl
  rw [hb]
  generalize keptFields w.fields = fs at hk ⊢
  clear hb
  generalize hs : w.style = st at hst hk hin
  cases st with
  | unit => exact absurd rfl hst
  | named => cases tag <;> simp [variantT, hs]
  | tuple =>
    cases fs with
    | nil => exact absurd rfl (hk rfl)
    | cons a l =>
      cases tag with
      | internal t => exact absurd rfl (hin t rfl)
      | _ => simp [variantT, hs]

theorem bodyOf_style {R : Ty → Json → Prop} {st : Style} {fs : List Field} {j : Json} (h : BodyOf R st fs j) : st ≠ .unit := by
  intro e; subst e; cases h

theorem typed_kept {w : Variant} (ht : TypedFields P odd len w.style w.fields) (h : w.style = .tuple) :
    keptFields w.fields ≠ [] := by
  rw [h] at ht
  obtain ⟨hl, _⟩ := ht
  intro hk
  rw [hk] at hl
  simp at hl

/-! ## Built-in types -/

theorem prim_typed {p : Prim} {j : Json} (hs : Ser P odd (.prim p) j) (ht : Typed odd (.prim p)) :
    Inhabits D len (primT p) (fromJson j) := by
  have hnum : ∀ n : JNum, p ∈ ([.f32, .f64, .notNanF32, .notNanF64] : List Prim) ∨ (∃ r, smallRange p = some r) ∨
      (∃ r, wideRange p = some r) → Inhabits D len (primT p) (fromJson (.num n)) := by
    intro n h
    have e : primT p = .name [lit "number"] := by
      rcases h with h | ⟨r, h⟩ | ⟨r, h⟩
      · simp at h; rcases h with rfl | rfl | rfl | rfl <;> rfl
      · cases p <;> first | (cases h; done) | rfl
      · cases p <;> first | (cases h; done) | rfl
    rw [e]
    cases n <;> exact .number _
  cases hs with
  | string s => exact .string s
  | strRef s => exact .string s
  | smolStr s => exact .string s
  | char c => exact .string _
  | bool b => exact .boolean b
  | unit => exact .null
  | ipv4 _ a b c d h => rcases h with rfl | rfl <;> exact .string _
  | ipv6 _ old g h _ _ => rcases h with rfl | rfl <;> exact .string _
  | int _ lo hi i h => exact hnum _ (Or.inr (h.imp (fun h => ⟨_, h⟩) (fun h => ⟨_, h⟩)))
  | float _ q h => exact hnum _ (Or.inl (by unfold floatPrim at h; simpa using h))
  | nonFinite _ h h' =>
    cases ht with
    | prim _ hp => rw [hp h] at h'; cases h'

theorem views_self {t : Ty} {j : Json} {v : JsVal} (h : Views P t j v) (hn : ¬ Solid P t) : v = fromJson j := by
  rcases h with h | ⟨hs, _⟩
  · exact h
  · exact absurd hs hn

theorem prim_good {p : Prim} {j : Json} (hs : Ser P odd (.prim p) j) : Good P odd len D (.prim p) j := by
  intro ht hd v hv use T hM
  cases views_self hv (by rintro ⟨⟩)
  cases hM with
  | prim => exact prim_typed hs ht

theorem arr_good {t : Ty} {js : List Json} (h : ∀ j ∈ js, Good P odd len D t j) (ht : Typed odd t)
    (hd : DistinctKeys (.arr js)) {T : TsType} (hM : Means P false t T) :
    Inhabits D len (.app [lit "Array"] [T]) (fromJson (.arr js)) := by
  rw [fromJson_arr]
  refine .array _ _ fun x hx => ?_
  obtain ⟨j, hj, rfl⟩ := List.mem_map.1 hx
  have hd' : ∀ j ∈ js, DistinctKeys j := by cases hd with | arr _ h => exact h
  exact (h j hj).self ht (hd' j hj) hM

theorem struct_decl (hT : ∀ d ∈ P, TypedDecl P odd len d) {i : Nat} {s : StructDecl} (hi : P[i]? = some (.struct s))
    (hinto : s.into = none) : s.from_.ty? = none ∧
      if s.transparent then ∃ f, keptFields s.fields = [f] ∧ serFields s.fields = [f] ∧ Typed odd f.ty
      else TypedFields P odd len s.style s.fields := by
  have := hT _ (List.mem_of_getElem? hi)
  simp only [TypedDecl, hinto] at this
  exact this

theorem enum_decl (hT : ∀ d ∈ P, TypedDecl P odd len d) {i : Nat} {e : EnumDecl} (hi : P[i]? = some (.enum e))
    (hinto : e.into = none) {w : Variant} (hw : w ∈ e.variants) (hs : w.skipSer = false) :
    e.from_.ty? = none ∧ TypedVariant P odd len e.tag w := by
  have := hT _ (List.mem_of_getElem? hi)
  simp only [TypedDecl, hinto] at this
  exact ⟨this.1, this.2 w hw hs⟩

theorem into_good (hT : ∀ d ∈ P, TypedDecl P odd len d) {i : Nat} {d : Decl} {t : Ty} {j : Json} (hi : P[i]? = some d)
    (hin : Decl.into d = some t) (h : Good P odd len D t j) : Good P odd len D (.named i) j := by
  intro _ hd v hv use T hM
  have hT := hT _ (List.mem_of_getElem? hi)
  have hv' : Views P t j v := by
    rcases hv with hv | ⟨hs, hv⟩
    · exact Or.inl hv
    · refine Or.inr ⟨?_, hv⟩
      cases hs with
      | into _ d' t' hi' hin' hs =>
        rw [hi] at hi'; injection hi' with hi'; subst hi'
        rw [hin] at hin'; injection hin' with hin'; subst hin'
        exact hs
      | newtype _ s' f' hi' hn => rw [hi] at hi'; injection hi' with hi'; subst hi'; rw [show Decl.into (.struct s') = s'.into from rfl, hn] at hin; cases hin
      | struct _ s' hi' hn => rw [hi] at hi'; injection hi' with hi'; subst hi'; rw [show Decl.into (.struct s') = s'.into from rfl, hn] at hin; cases hin
      | enum _ e' hi' hn => rw [hi] at hi'; injection hi' with hi'; subst hi'; rw [show Decl.into (.enum e') = e'.into from rfl, hn] at hin; cases hin
  cases d with
  | struct s =>
    have hin : s.into = some t := hin
    simp only [TypedDecl, hin] at hT
    have eqd : ∀ s', P[i]? = some (.struct s') → s' = s := by
      intro s' h; rw [hi] at h; injection h with h; injection h with h; exact h.symm
    cases hM with
    | ref _ d' hi' hn => rw [hi] at hi'; injection hi' with hi'; subst hi'; rw [show s.from_.ty? = none from hn] at hT; cases hT.1
    | structFrom _ _ s' t' _ hi' hf' hM =>
      cases eqd _ hi'
      rw [hT.1] at hf'; injection hf' with hf'; subst hf'
      exact h hT.2 hd v hv' _ _ hM
    | newtype _ s' f' T hi' hf' => cases eqd _ hi'; rw [hT.1] at hf'; cases hf'
    | tupleStruct _ s' Ts hi' hf' => cases eqd _ hi'; rw [hT.1] at hf'; cases hf'
    | namedStruct _ s' Ts Us hi' hf' => cases eqd _ hi'; rw [hT.1] at hf'; cases hf'
    | enumFrom _ _ e' t _ hi' => rw [hi] at hi'; cases hi'
    | enum _ e' Tss hi' => rw [hi] at hi'; cases hi'
  | enum e =>
    have hin : e.into = some t := hin
    simp only [TypedDecl, hin] at hT
    have eqd : ∀ s', P[i]? = some (.enum s') → s' = e := by
      intro s' h; rw [hi] at h; injection h with h; injection h with h; exact h.symm
    cases hM with
    | ref _ d' hi' hn => rw [hi] at hi'; injection hi' with hi'; subst hi'; rw [show e.from_.ty? = none from hn] at hT; cases hT.1
    | structFrom _ _ s' t' _ hi' => rw [hi] at hi'; cases hi'
    | newtype _ s' f' T hi' => rw [hi] at hi'; cases hi'
    | tupleStruct _ s' Ts hi' => rw [hi] at hi'; cases hi'
    | namedStruct _ s' Ts Us hi' => rw [hi] at hi'; cases hi'
    | enumFrom _ _ e' t' _ hi' hf' hM =>
      cases eqd _ hi'
      rw [hT.1] at hf'; injection hf' with hf'; subst hf'
      exact h hT.2 hd v hv' _ _ hM
    | enum _ e' Tss hi' hf' => cases eqd _ hi'; rw [hT.1] at hf'; cases hf'

theorem transparent_good (hD : Declared P D) (hT : ∀ d ∈ P, TypedDecl P odd len d) {i : Nat} {s : StructDecl} {f : Field} {j : Json}
    (hi : P[i]? = some (.struct s)) (hin : s.into = none) (htr : s.transparent = true) (hf : innerSer s.fields = [f])
    (h : Good P odd len D f.ty j) : Good P odd len D (.named i) j := by
  intro _ hd v hv use T hM
  obtain ⟨hfr, hT⟩ := struct_decl hT hi hin
  rw [if_pos htr] at hT
  obtain ⟨f', hk, hf', hty⟩ := hT
  cases innerSer_only hf' hf
  have eqd : ∀ s', P[i]? = some (.struct s') → s' = s := by
    intro s' h; rw [hi] at h; injection h with h; injection h with h; exact h.symm
  have hv' : Views P f.ty j v := by
    rcases hv with hv | ⟨hs, hv⟩
    · exact Or.inl hv
    · refine Or.inr ⟨?_, hv⟩
      cases hs with
      | into _ d' t' hi' hin' hs =>
        rw [hi] at hi'; injection hi' with hi'; subst hi'
        rw [show Decl.into (.struct s) = s.into from rfl, hin] at hin'; cases hin'
      | newtype _ s' f' hi' _ _ hk' hs => cases eqd _ hi'; rw [hk] at hk'; injection hk' with hk' _; subst hk'; exact hs
      | struct _ s' hi' _ htr' => cases eqd _ hi'; rw [htr] at htr'; cases htr'
      | enum _ e' hi' hn => rw [hi] at hi'; cases hi'
  refine good_of_def hD hi hfr (fun T hM => ?_) use T hM
  cases hM with
  | structFrom _ _ s' t' _ hi' hf' hM => cases eqd _ hi'; rw [hfr] at hf'; cases hf'
  | newtype _ s' f' T hi' _ _ hk' hM =>
    cases eqd _ hi'
    rw [hk] at hk'; injection hk' with hk' _; subst hk'
    exact inhabits_orUndefined (h hty hd v hv' _ _ hM)
  | tupleStruct _ s' Ts hi' _ htr' => cases eqd _ hi'; rw [htr] at htr'; cases htr'
  | namedStruct _ s' Ts Us hi' _ htr' => cases eqd _ hi'; rw [htr] at htr'; cases htr'
  | enumFrom _ _ e' t _ hi' => rw [hi] at hi'; cases hi'
  | enum _ e' Tss hi' => rw [hi] at hi'; cases hi'

/-- How the document of an enum may be seen. -/
theorem views_enum {i : Nat} {e : EnumDecl} (hi : P[i]? = some (.enum e)) (hin : e.into = none) {j : Json} {v : JsVal}
    (hv : Views P (.named i) j v) {w : Variant} (hw : w ∈ e.variants) (ht : e.tag = .untagged) :
    v = fromJson j ∨ (SolidBody P w ∧ ∃ kvs, j = .obj kvs ∧ Sees false kvs v) := by
  rcases hv with hv | ⟨hs, hv⟩
  · exact Or.inl hv
  · refine Or.inr ⟨?_, hv⟩
    cases hs with
    | into _ d' t' hi' hin' hs =>
      rw [hi] at hi'; injection hi' with hi'; subst hi'
      rw [show Decl.into (.enum e) = e.into from rfl, hin] at hin'; cases hin'
    | newtype _ s' f' hi' => rw [hi] at hi'; cases hi'
    | struct _ s' hi' => rw [hi] at hi'; cases hi'
    | enum _ e' hi' _ h1 h2 =>
      rw [hi] at hi'; injection hi' with hi'; injection hi' with hi'; subst hi'
      exact ⟨fun h => h1 w hw h (Or.inl ht), fun h f => h2 w hw h ht f⟩

theorem solid_internal {i : Nat} {e : EnumDecl} (hi : P[i]? = some (.enum e)) (hin : e.into = none) (hs : Solid P (.named i))
    {w : Variant} (hw : w ∈ e.variants) {t : Str} (ht : e.tag = .internal t) (hst : w.style = .named) : AlwaysWritten w.fields := by
  cases hs with
  | into _ d' t' hi' hin' hs =>
    rw [hi] at hi'; injection hi' with hi'; subst hi'
    rw [show Decl.into (.enum e) = e.into from rfl, hin] at hin'; cases hin'
  | newtype _ s' f' hi' => rw [hi] at hi'; cases hi'
  | struct _ s' hi' => rw [hi] at hi'; cases hi'
  | enum _ e' hi' _ h1 h2 =>
    rw [hi] at hi'; injection hi' with hi'; injection hi' with hi'; subst hi'
    exact h1 w hw hst (Or.inr ⟨t, ht⟩)

/-- A literal property. -/
theorem literal_prop {kvs : List (Str × Json)} {k n : Str} (h : (k, Json.str n) ∈ kvs) :
    ∃ j, ((k, false, TsType.str n) : Str × Bool × TsType).1 = k ∧ (k, j) ∈ kvs ∧ Inhabits D len (.str n) (fromJson j) :=
  ⟨_, rfl, h, .literal n⟩

theorem views_sees {t : Ty} {kvs : List (Str × Json)} {v : JsVal} (hd : DistinctKeys (.obj kvs))
    (h : Views P t (.obj kvs) v) : ∃ only, Sees only kvs v ∧ (only = true ∨ Solid P t) := by
  rcases views_obj hd h with h | ⟨hs, h⟩
  · exact ⟨true, h, Or.inl rfl⟩
  · exact ⟨false, h, Or.inr hs⟩

variable (hD : Declared P D) (hT : ∀ d ∈ P, TypedDecl P odd len d)
include hD hT

theorem external_good {i : Nat} {e : EnumDecl} {w : Variant} {j : Json} (hi : P[i]? = some (.enum e)) (hin : e.into = none)
    (htag : e.tag = .external) (hw : w ∈ e.variants) (hs : w.skipSer = false) (hss : serStyle w = w.style)
    (h : BodyOf (Good P odd len D) w.style w.fields j) : Good P odd len D (.named i) (.obj [(w.serName, j)]) := by
  intro _ hd v hv use T hM
  obtain ⟨hfr, h1, h2, h3, h4, h5⟩ := enum_decl hT hi hin hw hs
  rw [hss] at h3
  refine good_of_def hD hi hfr (enum_good hi hfr hw h1 fun Ts hlen hTs => ?_) use T hM
  rw [variantT_eq (bodyOf_style h) (typed_kept h3) (fun t h => by rw [htag] at h; cases h), htag]
  obtain ⟨only, hsee, _⟩ := views_sees hd hv
  have hdm : ∀ p ∈ [(w.serName, j)], DistinctKeys p.2 := by cases hd with | obj _ _ h => exact h
  refine inhabits_sees hsee fun p hp => Or.inl ⟨j, ?_⟩
  cases List.mem_singleton.1 hp
  rw [h2]
  exact ⟨List.mem_singleton.2 rfl, body_good h (hdm (w.serName, j) (List.mem_singleton.2 rfl)) h3 h4 _ (Or.inl rfl) hlen hTs⟩

theorem adjacent_good {i : Nat} {e : EnumDecl} {w : Variant} {j : Json} {t c : Str} (hi : P[i]? = some (.enum e)) (hin : e.into = none)
    (htag : e.tag = .adjacent t c) (hw : w ∈ e.variants) (hs : w.skipSer = false) (hss : serStyle w = w.style)
    (h : BodyOf (Good P odd len D) w.style w.fields j) :
    Good P odd len D (.named i) (.obj [(t, .str w.serName), (c, j)]) := by
  intro _ hd v hv use T hM
  obtain ⟨hfr, h1, h2, h3, h4, h5⟩ := enum_decl hT hi hin hw hs
  rw [hss] at h3
  refine good_of_def hD hi hfr (enum_good hi hfr hw h1 fun Ts hlen hTs => ?_) use T hM
  rw [variantT_eq (bodyOf_style h) (typed_kept h3) (fun t h => by rw [htag] at h; cases h), htag]
  obtain ⟨only, hsee, _⟩ := views_sees hd hv
  have hdm : ∀ p ∈ [(t, .str w.serName), (c, j)], DistinctKeys p.2 := by cases hd with | obj _ _ h => exact h
  refine inhabits_sees hsee fun p hp => Or.inl ?_
  rcases List.mem_cons.1 hp with rfl | hp
  · exact ⟨_, List.mem_cons_self, by rw [h2]; exact .literal _⟩
  · cases List.mem_singleton.1 hp
    exact ⟨j, List.mem_cons_of_mem _ List.mem_cons_self,
      body_good h (hdm (c, j) (List.mem_cons_of_mem _ List.mem_cons_self)) h3 h4 _ (Or.inl rfl) hlen hTs⟩

theorem untagged_good {i : Nat} {e : EnumDecl} {w : Variant} {j : Json} (hi : P[i]? = some (.enum e)) (hin : e.into = none)
    (htag : e.tag = .untagged) (hw : w ∈ e.variants) (hs : w.skipSer = false) (hss : serStyle w = w.style)
    (h : BodyOf (Good P odd len D) w.style w.fields j) : Good P odd len D (.named i) j := by
  intro _ hd v hv use T hM
  obtain ⟨hfr, h1, h2, h3, h4, h5⟩ := enum_decl hT hi hin hw hs
  rw [hss] at h3
  refine good_of_def hD hi hfr (enum_good hi hfr hw h1 fun Ts hlen hTs => ?_) use T hM
  rw [variantT_eq (bodyOf_style h) (typed_kept h3) (fun t h => by rw [htag] at h; cases h), htag]
  exact body_good h hd h3 h4 v (views_enum hi hin hv hw htag) hlen hTs

theorem internal_good {i : Nat} {e : EnumDecl} {w : Variant} {kvs : List (Str × Json)} {t : Str} (hi : P[i]? = some (.enum e)) (hin : e.into = none)
    (htag : e.tag = .internal t) (hw : w ∈ e.variants) (hs : w.skipSer = false) (hss : serStyle w = w.style) (hst : w.style = .named)
    (h : FieldsOf (Good P odd len D) w.fields kvs) :
    Good P odd len D (.named i) (.obj ((t, .str w.serName) :: kvs)) := by
  intro _ hd v hv use T hM
  obtain ⟨hfr, h1, h2, h3, h4, h5⟩ := enum_decl hT hi hin hw hs
  rw [hss] at h3
  simp only [htag, hss] at h5
  refine good_of_def hD hi hfr (enum_good hi hfr hw h1 fun Ts hlen hTs => ?_) use T hM
  rw [variantT_eq (by rw [hst]; intro h; cases h) (typed_kept h3) (fun t _ => h5.1), htag]
  obtain ⟨only, hsee, ho⟩ := views_sees hd hv
  have ho : only = true ∨ AlwaysWritten w.fields := ho.imp id fun hso => solid_internal hi hin hso hw htag hst
  refine inhabits_sees hsee fun p hp => ?_
  rcases List.mem_cons.1 hp with rfl | hp
  · exact Or.inl ⟨_, List.mem_cons_self, by rw [h2]; exact .literal _⟩
  · rw [hst] at h3
    refine props_good h (fun p hp => List.mem_cons_of_mem _ hp) (fun k hk hk' => ?_) hd h3 ho
      (fun f hf => ⟨hf, h4 f (List.mem_filter.1 hf).1⟩) hTs p hp
    rw [List.map_cons]
    intro hm
    rcases List.mem_cons.1 hm with rfl | hm
    · exact h5.2 hk'
    · exact hk hm

/-- Unit variants. -/
theorem unit_good {i : Nat} {e : EnumDecl} {w : Variant} {j : Json} (hi : P[i]? = some (.enum e)) (hin : e.into = none)
    (hw : w ∈ e.variants) (hs : w.skipSer = false) (hst : serStyle w = .unit)
    (h : ∀ v, DistinctKeys j → Views P (.named i) j v → w.serName = w.name → Inhabits D len (unitT e.tag w.name) v) :
    Good P odd len D (.named i) j := by
  intro _ hd v hv use T hM
  obtain ⟨hfr, h1, h2, h3, h4, h5⟩ := enum_decl hT hi hin hw hs
  refine good_of_def hD hi hfr (enum_good hi hfr hw h1 fun Ts hlen hTs => ?_) use T hM
  rw [hst] at h3
  have h3 : keptFields w.fields = [] := h3
  have : variantT e.tag w (keptFields w.fields) Ts = unitT e.tag w.name := by
    unfold variantT
    cases hs : w.style with
    | unit => rfl
    | named => rw [serStyle, hs] at hst; cases hst
    | tuple => rw [h3]
  rw [this]
  exact h v hd hv h2

mutual

theorem ser_good : ∀ {t : Ty} {j : Json}, Ser P odd t j → Good P odd len D t j
  | _, _, .string s => prim_good (.string s)
  | _, _, .strRef s => prim_good (.strRef s)
  | _, _, .smolStr s => prim_good (.smolStr s)
  | _, _, .char c h => prim_good (.char c h)
  | _, _, .bool b => prim_good (.bool b)
  | _, _, .unit => prim_good .unit
  | _, _, .ipv4 p a b c d h => prim_good (.ipv4 p a b c d h)
  | _, _, .ipv6 p o g h hg hs => prim_good (.ipv6 p o g h hg hs)
  | _, _, .int p lo hi i h1 h2 h3 => prim_good (.int p lo hi i h1 h2 h3)
  | _, _, .float p q h => prim_good (.float p q h)
  | _, _, .nonFinite p h h' => prim_good (.nonFinite p h h')
  | _, _, .wrap w t j hw h => by
    have ih := ser_good h
    intro ht hd v hv use T hM
    cases ht with
    | wrap _ _ _ _ ht =>
    cases hM with
    | wrap _ _ _ _ hM =>
    refine ih ht hd v ?_ _ _ hM
    rcases hv with hv | ⟨hs, hv⟩
    · exact Or.inl hv
    · cases hs with
      | wrap _ _ hs => exact Or.inr ⟨hs, hv⟩
  | _, _, .phantom t => by
    intro ht
    cases ht with
    | wrap _ _ h => exact absurd rfl h
  | _, _, .weak t => by
    intro ht
    cases ht with
    | wrap _ _ _ h => exact absurd rfl h
  | _, _, .none t => by rintro ⟨⟩
  | _, _, .some t j _ => by rintro ⟨⟩
  | _, _, .vec t js h => by
    have ih := fun j hj => ser_good (h j hj)
    intro ht hd v hv use T hM
    cases views_self hv (by rintro ⟨⟩)
    cases ht with
    | vec _ ht =>
    cases hM with
    | vec _ _ _ hM => exact arr_good ih ht hd hM
  | _, _, .array n t js hn h => by
    have ih := fun j hj => ser_good (h j hj)
    intro ht hd v hv use T hM
    cases views_self hv (by rintro ⟨⟩)
    cases ht with
    | array _ _ ht =>
    cases hM with
    | array _ _ _ _ hM => exact arr_good ih ht hd hM
  | _, _, .hashSet t js h => by rintro ⟨⟩
  | _, _, .btreeSet t js h => by rintro ⟨⟩
  | _, _, .hashMap p t kvs hp h => by rintro ⟨⟩
  | _, _, .btreeMap p t kvs hp h => by rintro ⟨⟩
  | _, _, .tuple ts js h => by
    have ih := all2_of h
    intro ht hd v hv use T hM
    cases views_self hv (by rintro ⟨⟩)
    cases ht with
    | tuple _ ht =>
    cases hM with
    | tuple _ _ Ts hlen hM =>
    rw [fromJson_arr]
    have hl := All2.length ih
    refine .tuple _ _ (by rw [List.length_map]; omega) fun i T x hi hx => ?_
    have hd' : ∀ j ∈ js, DistinctKeys j := by cases hd with | arr _ h => exact h
    rw [List.getElem?_map] at hx
    cases hj : js[i]? with
    | none => rw [hj] at hx; cases hx
    | some j =>
    rw [hj] at hx
    injection hx with hx
    subst hx
    cases ht' : ts[i]? with
    | none =>
      have := (List.getElem?_eq_some_iff.1 hj).1
      have := List.getElem?_eq_none_iff.1 ht'
      omega
    | some t =>
    exact (All2.get ih ht' hj).self (ht t (List.mem_of_getElem? ht')) (hd' j (List.mem_of_getElem? hj)) (hM i t T ht' hi)
  | _, _, .ok t e j h => by
    have ih := ser_good h
    intro ht hd v hv use T hM
    cases ht with
    | result _ _ ht he =>
    cases hM with
    | result _ _ _ T E hM hE =>
    obtain ⟨only, hsee, _⟩ := views_sees hd hv
    have hdm : ∀ p ∈ [(lit "Ok", j)], DistinctKeys p.2 := by cases hd with | obj _ _ h => exact h
    refine .union _ _ _ List.mem_cons_self (inhabits_sees hsee fun p hp => Or.inl ⟨j, ?_⟩)
    cases List.mem_singleton.1 hp
    exact ⟨List.mem_singleton.2 rfl, ih.self ht (hdm (lit "Ok", j) (List.mem_singleton.2 rfl)) hM⟩
  | _, _, .err t e j h => by
    have ih := ser_good h
    intro ht hd v hv use T hM
    cases ht with
    | result _ _ ht he =>
    cases hM with
    | result _ _ _ T E hM hE =>
    obtain ⟨only, hsee, _⟩ := views_sees hd hv
    have hdm : ∀ p ∈ [(lit "Err", j)], DistinctKeys p.2 := by cases hd with | obj _ _ h => exact h
    refine .union _ _ _ (List.mem_cons_of_mem _ List.mem_cons_self) (inhabits_sees hsee fun p hp => Or.inl ⟨j, ?_⟩)
    cases List.mem_singleton.1 hp
    exact ⟨List.mem_singleton.2 rfl, ih.self he (hdm (lit "Err", j) (List.mem_singleton.2 rfl)) hE⟩
  | _, _, .into i d t j hi hin h => into_good hT hi hin (ser_good h)
  | _, _, .transparent i s f j hi hin htr hf h => transparent_good hD hT hi hin htr hf (ser_good h)
  | _, _, .struct i s j hi hin htr h => by
    have ih := body_of h
    intro _ hd v hv use T hM
    obtain ⟨hfr, ht⟩ := struct_decl hT hi hin
    rw [if_neg (by simp [htr])] at ht
    exact good_of_def hD hi hfr (struct_good hi hin hfr htr ht ih hd v hv) use T hM
  | _, _, .externalUnit i e w hi hin htag hw hs hst => by
    refine unit_good hD hT hi hin hw hs hst fun v hd hv hn => ?_
    rw [htag, views_eq hv (fun kvs => by rintro ⟨⟩), hn]
    exact .literal _
  | _, _, .external i e w j hi hin htag hw hs h => by
    have ih := body_of h
    have hss := serStyle_eq (serBody_not_unit h)
    rw [hss] at ih
    exact external_good hD hT hi hin htag hw hs hss ih
  | _, _, .internalUnit i e w t hi hin htag hw hs hst => by
    refine unit_good hD hT hi hin hw hs hst fun v hd hv hn => ?_
    rw [htag]
    obtain ⟨only, hsee, _⟩ := views_sees hd hv
    refine inhabits_sees hsee fun p hp => Or.inl ?_
    cases List.mem_singleton.1 hp
    exact ⟨_, List.mem_singleton.2 rfl, by rw [hn]; exact .literal _⟩
  | _, _, .internal i e w t kvs hi hin htag hw hs hst h => by
    have hss := serStyle_eq (v := w) (by rw [hst]; intro h; cases h)
    exact internal_good hD hT hi hin htag hw hs hss (hss ▸ hst) (fields_of h)
  | _, _, .internalNewtype i e w t f kvs hi hin htag hw hs hst hf h => by
    intro _ hd v hv use T hM
    obtain ⟨hfr, h1, h2, h3, h4, h5⟩ := enum_decl hT hi hin hw hs
    simp only [htag] at h5
    exact absurd hst h5.1
  | _, _, .adjacentUnit i e w t c hi hin htag hw hs hst => by
    refine unit_good hD hT hi hin hw hs hst fun v hd hv hn => ?_
    rw [htag]
    obtain ⟨only, hsee, _⟩ := views_sees hd hv
    refine inhabits_sees hsee fun p hp => Or.inl ?_
    cases List.mem_singleton.1 hp
    exact ⟨_, List.mem_singleton.2 rfl, by rw [hn]; exact .literal _⟩
  | _, _, .adjacent i e w t c j hi hin htag hw hs h => by
    have ih := body_of h
    have hss := serStyle_eq (serBody_not_unit h)
    rw [hss] at ih
    exact adjacent_good hD hT hi hin htag hw hs hss ih
  | _, _, .untaggedUnit i e w hi hin htag hw hs hst => by
    refine unit_good hD hT hi hin hw hs hst fun v hd hv hn => ?_
    rw [htag, views_eq hv (fun kvs => by rintro ⟨⟩)]
    exact .null
  | _, _, .untagged i e w j hi hin htag hw hs h => by
    have ih := body_of h
    have hss := serStyle_eq (serBody_not_unit h)
    rw [hss] at ih
    exact untagged_good hD hT hi hin htag hw hs hss ih

theorem body_of : ∀ {st : Style} {fs : List Field} {j : Json}, SerBody P odd st fs j → BodyOf (Good P odd len D) st fs j
  | _, _, _, .newtype f j h => .newtype f j (ser_good h)
  | _, _, _, .tuple fs gs js hl hch h => .tuple fs gs js hl hch (all2_of h)
  | _, _, _, .named fs kvs h => .named fs kvs (fields_of h)

theorem fields_of : ∀ {fs : List Field} {kvs : List (Str × Json)}, SerFields P odd fs kvs → FieldsOf (Good P odd len D) fs kvs
  | _, _, .nil => .nil
  | _, _, .skip f fs kvs h1 h => .skip f fs kvs h1 (fields_of h)
  | _, _, .absent f fs kvs t h1 h2 h3 h => .absent f fs kvs t h1 h2 h3 (fields_of h)
  | _, _, .omitted f fs kvs h1 h2 h => .omitted f fs kvs h1 h2 (fields_of h)
  | _, _, .present f fs kvs t j h1 h2 h3 h4 h5 h => .present f fs kvs t j h1 h2 h3 h4 (ser_good h5) (fields_of h)
  | _, _, .field f fs kvs j h1 h2 h3 h4 h => .field f fs kvs j h1 h2 h3 (ser_good h4) (fields_of h)
  | _, _, .flat f fs kvs' kvs h1 h2 h3 h => .flat f fs kvs' kvs h1 h2 (ser_good h3) (fields_of h)
  | _, _, .flatNone f fs kvs t h1 h2 h3 h => .flatNone f fs kvs t h1 h2 h3 (fields_of h)

theorem all2_of : ∀ {ts : List Ty} {js : List Json}, All2 (Ser P odd) ts js → All2 (Good P odd len D) ts js
  | _, _, .nil => .nil
  | _, _, .cons h hs => .cons (ser_good h) (all2_of hs)

end

end

end Verif.Ts
