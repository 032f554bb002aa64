import Verif.Zod.Complete
import Verif.Spec.EnumShape

/-!
# The schema of an enum accepts the shapes of its variants, and nothing else
-/

namespace Verif.Zod
open Verif Verif.Js Verif.Schema Verif.Spec Verif.SchemaSpec

section
variable {E : ZEnv}

theorem objGet_prop {kvs : List (Str × JsVal)} {k : Str} {x : JsVal} (h : prop? kvs k = some x) :
    objGet kvs k = x := by
  unfold prop? at h
  unfold objGet
  cases hf : kvs.find? (fun p => p.1 = k) with
  | none => rw [hf] at h; cases h
  | some p => rw [hf] at h; injection h

theorem prop_objGet {kvs : List (Str × JsVal)} {k : Str} (h : objGet kvs k ≠ .undefined) :
    prop? kvs k = some (objGet kvs k) := by
  unfold objGet at h ⊢
  unfold prop?
  cases hf : kvs.find? (fun p => p.1 = k) with
  | none => rw [hf] at h; exact absurd rfl h
  | some p => rfl

theorem Accepts.parse {z : ZSchema} {v : JsVal} (h : Accepts E z v) : ∃ r k, parse E (k + 1) z v = some (some r) := by
  obtain ⟨r, k, h⟩ := h
  exact ⟨r, k, parse_mono (Nat.le_succ k) h⟩

theorem literal_iff {s : Str} {v : JsVal} : Accepts E (.literal s) v ↔ v = .str s := by
  constructor
  · intro h; obtain ⟨r, k, h⟩ := h.parse; exact (parse_literal h).1
  · rintro rfl; exact accepts_literal

theorem null_iff {v : JsVal} : Accepts E .null v ↔ v = .null := by
  constructor
  · intro h; obtain ⟨r, k, h⟩ := h.parse; exact (parse_null h).1
  · rintro rfl; exact ⟨.null, 1, rfl⟩

theorem objZ_iff {l : List (Str × Option ZSchema)} {z : ZSchema} (hz : objZ l = some z) {v : JsVal} :
    Accepts E z v ↔ ∃ kvs, v = .obj kvs ∧ ∀ p ∈ l, ∀ z, p.2 = some z → Accepts E z (objGet kvs p.1) := by
  constructor
  · intro h
    obtain ⟨r, k, h⟩ := h.parse
    obtain ⟨kvs, rs, rfl, _, _, h⟩ := objZ_parse hz h
    refine ⟨kvs, rfl, fun p hp z hz => ?_⟩
    obtain ⟨r, _, z', hz', hr⟩ := All2.mem_left h hp
    rw [hz] at hz'
    injection hz' with e
    subst e
    exact ⟨r, k, hr⟩
  · rintro ⟨kvs, rfl, h⟩
    exact accepts_objZ hz h

theorem tuple_iff {zs : List ZSchema} {v : JsVal} : Accepts E (.tuple zs) v ↔ ∃ l, v = .arr l ∧ All2 (Accepts E) zs l := by
  constructor
  · intro h0
    obtain ⟨r, k, h1⟩ := h0.parse
    obtain ⟨l, rs, rfl, hr, hl, h⟩ := parse_tuple h1
    refine ⟨l, rfl, ?_⟩
    clear h0 h1 hr
    induction zs generalizing l rs with
    | nil => cases l with
      | nil => exact .nil
      | cons _ _ => simp at hl
    | cons z zs ih =>
      cases l with
      | nil => simp at hl
      | cons a l =>
        rw [List.zip_cons_cons] at h
        cases h with
        | cons h1 h2 => exact .cons ⟨_, k, h1⟩ (ih l _ (by simpa using hl) h2)
  · rintro ⟨l, rfl, h⟩
    exact accepts_tuple h

theorem optional_iff {z : ZSchema} {v : JsVal} : Accepts E (.optional z) v ↔ v = .undefined ∨ Accepts E z v := by
  constructor
  · intro h
    obtain ⟨r, k, h⟩ := h.parse
    rcases parse_optional h with ⟨e, _⟩ | ⟨_, h⟩
    · exact Or.inl e
    · exact Or.inr ⟨r, k, h⟩
  · exact accepts_optional

variable {rec : Method → Ty → Option ZSchema} {ok : Ty → JsVal → Prop}

/-- A field, given what the schemas of the types accept. -/
theorem vfield_iff {f : Field} {z : ZSchema} (hz : vfieldZ rec f = some z)
    (hok : ∀ z, rec .inlineSchema f.ty = some z → ∀ v, Accepts E z v ↔ ok f.ty v) {v : JsVal} :
    Accepts E z v ↔ (f.dflt = true ∧ v = .undefined) ∨ ok f.ty v := by
  unfold vfieldZ optZ at hz
  cases hd : f.dflt with
  | false => rw [hd] at hz; simpa using hok z hz v
  | true =>
    rw [hd] at hz
    cases hr : rec .inlineSchema f.ty with
    | none => rw [hr] at hz; cases hz
    | some a =>
      rw [hr] at hz; injection hz with hz; subst hz
      rw [optional_iff, hok a hr v]
      simp

theorem allSome_iff {fs : List Field} {zs : List ZSchema} (hz : All2 (fun f z => vfieldZ rec f = some z) fs zs)
    (hd : ∀ f ∈ fs, f.dflt = false)
    (hok : ∀ f ∈ fs, ∀ z, rec .inlineSchema f.ty = some z → ∀ v, Accepts E z v ↔ ok f.ty v) {l : List JsVal} :
    All2 (Accepts E) zs l ↔ All2 ok (fs.map (·.ty)) l := by
  induction hz generalizing l with
  | nil => constructor <;> (intro h; cases h; exact .nil)
  | cons h1 _ ih =>
    have hf := fun v => vfield_iff (ok := ok) (v := v) h1 (hok _ List.mem_cons_self)
    have hd1 := hd _ List.mem_cons_self
    have ih := @ih (fun f hf => hd f (List.mem_cons_of_mem _ hf)) (fun f hf => hok f (List.mem_cons_of_mem _ hf))
    constructor
    · intro h
      cases h with
      | cons h2 h3 =>
        refine .cons ?_ (ih.1 h3)
        rcases (hf _).1 h2 with ⟨e, _⟩ | h
        · rw [hd1] at e; cases e
        · exact h
    · intro h
      cases h with
      | cons h2 h3 => exact .cons ((hf _).2 (Or.inr h2)) (ih.2 h3)

/-- The payload of a variant. -/
theorem payload_iff {style : Style} {fs : List Field} {z : ZSchema}
    (hz : bodyZ rec style (keptFields fs) = some z)
    (ht : style = .tuple → ((fs.length = 1 ∧ (keptFields fs).length = 1) ∨
      (fs.length ≠ 1 ∧ 2 ≤ (keptFields fs).length)) ∧ ∀ f ∈ keptFields fs, f.dflt = false)
    (hok : ∀ f ∈ keptFields fs, ∀ z, rec .inlineSchema f.ty = some z → ∀ v, Accepts E z v ↔ ok f.ty v) {v : JsVal} :
    Accepts E z v ↔ Payload ok style fs v := by
  cases style with
  | unit => cases hz
  | named =>
    have hz : objZ ((keptFields fs).map (fun f => (f.name, vfieldZ rec f))) = some z := hz
    rw [objZ_iff hz]
    have fld : ∀ kvs, (∀ p ∈ (keptFields fs).map (fun f => (f.name, vfieldZ rec f)), ∀ z, p.2 = some z →
        Accepts E z (objGet kvs p.1)) ↔ (∀ f ∈ fs, f.skipDe = false →
        (f.dflt = true ∧ objGet kvs f.name = .undefined) ∨ ok f.ty (objGet kvs f.name)) := by
      intro kvs
      constructor
      · intro h f hf hs
        have hk := kept_keep hf hs
        obtain ⟨zs, _, _, ha⟩ := objZ_some hz
        obtain ⟨z', _, hz'⟩ := All2.mem_left ha (List.mem_map.2 ⟨f, hk, rfl⟩)
        exact (vfield_iff hz' (hok f hk)).1 (h _ (List.mem_map.2 ⟨f, hk, rfl⟩) z' hz')
      · intro h p hp z hz
        obtain ⟨f, hf, rfl⟩ := List.mem_map.1 hp
        have := List.mem_filter.1 hf
        exact (vfield_iff hz (hok f hf)).2 (h f this.1 (by simpa using this.2))
    constructor
    · rintro ⟨kvs, rfl, h⟩
      exact .named fs kvs ((fld kvs).1 h)
    · intro h
      cases h with
      | named _ kvs h => exact ⟨kvs, rfl, (fld kvs).2 h⟩
  | tuple =>
    obtain ⟨hlen, hd⟩ := ht rfl
    have hz : tupleFieldsZ rec (keptFields fs) = some z := hz
    rcases hlen with ⟨h1, h2⟩ | ⟨h1, h2⟩
    · obtain ⟨f, rfl⟩ := List.length_eq_one_iff.1 h1
      have hs : f.skipDe = false := by
        cases hs : f.skipDe with
        | false => rfl
        | true => simp [keptFields, hs] at h2
      have hk : keptFields [f] = [f] := by simp [keptFields, hs]
      rw [hk] at hz hd hok
      have hf := vfield_iff (ok := ok) (v := v) (show vfieldZ rec f = some z from hz) (hok f List.mem_cons_self)
      rw [hf]
      have hd := hd f List.mem_cons_self
      constructor
      · rintro (⟨e, _⟩ | h)
        · rw [hd] at e; cases e
        · exact .newtype f v hs h
      · intro h
        cases h with
        | newtype _ _ _ h => exact Or.inr h
        | tuple _ _ h => exact absurd rfl h
    · have hz' : ∃ zs, allSome ((keptFields fs).map (vfieldZ rec)) = some zs ∧ z = .tuple zs := by
        clear hd hok ht
        generalize keptFields fs = l at *
        rcases l with _ | ⟨a, _ | ⟨b, r⟩⟩
        · simp at h2
        · simp at h2
        · simp only [tupleFieldsZ] at hz
          cases ha : allSome (List.map (vfieldZ rec) (a :: b :: r)) with
          | none => rw [ha] at hz; cases hz
          | some zs => rw [ha] at hz; injection hz with hz; exact ⟨zs, rfl, hz.symm⟩
      obtain ⟨zs, ha, rfl⟩ := hz'
      rw [tuple_iff]
      constructor
      · rintro ⟨l, rfl, h⟩
        exact .tuple fs l h1 ((allSome_iff (allSome_all2 ha) hd hok).1 h)
      · intro h
        cases h with
        | newtype _ _ _ _ => simp at h1
        | tuple _ vs _ h => exact ⟨vs, rfl, (allSome_iff (allSome_all2 ha) hd hok).2 h⟩

/-- A payload is not `undefined`, unless that is acceptable for an only unnamed field. -/
theorem payload_defined {P : Program} {style : Style} {fs : List Field} {v : JsVal}
    (hn : style = .tuple → ∀ f, keptFields fs = [f] → NeverUndef P f.ty)
    (hnu : ∀ f ∈ keptFields fs, NeverUndef P f.ty → ¬ ok f.ty .undefined) (h : Payload ok style fs v) :
    v ≠ .undefined := by
  rintro rfl
  cases h with
  | newtype f _ hs h =>
    have hk : keptFields [f] = [f] := by simp [keptFields, hs]
    exact hnu f (by rw [hk]; exact List.mem_cons_self) (hn rfl f hk) h

/-- The schema of a variant. -/
theorem variant_iff {P : Program} {tag : Tag} {w : Variant} {z : ZSchema} (hz : variantZ rec tag w = some z)
    (hsv : ShapedVariant P tag w)
    (hok : ∀ f ∈ keptFields w.fields, ∀ z, rec .inlineSchema f.ty = some z → ∀ v, Accepts E z v ↔ ok f.ty v)
    (hnu : ∀ f ∈ keptFields w.fields, NeverUndef P f.ty → ¬ ok f.ty .undefined) {v : JsVal} :
    Accepts E z v ↔ Shape ok tag w v := by
  obtain ⟨htup, htag⟩ := hsv
  have hne : w.style = .tuple → keptFields w.fields ≠ [] := by
    intro hs h
    have := (htup hs).1
    rw [h] at this
    simp at this
  have strne : ∀ s : Str, JsVal.str s ≠ .undefined := by simp
  have one : ∀ (t : Str) (z : ZSchema), objZ [(t, some (.literal w.name))] = some z → ∀ v, (Accepts E z v ↔
      ∃ kvs, v = .obj kvs ∧ prop? kvs t = some (.str w.name)) := by
    intro t z hz v
    rw [objZ_iff hz]
    constructor
    · rintro ⟨kvs, rfl, h⟩
      have := literal_iff.1 (h _ List.mem_cons_self _ rfl)
      simp only at this
      exact ⟨kvs, rfl, by rw [prop_objGet (by rw [this]; exact strne _), this]⟩
    · rintro ⟨kvs, rfl, h⟩
      refine ⟨kvs, rfl, fun p hp z hz => ?_⟩
      rw [List.mem_singleton] at hp
      subst hp
      injection hz with hz
      subst hz
      exact literal_iff.2 (objGet_prop h)
  by_cases hu : w.style = .unit
  · unfold variantZ at hz
    rw [hu] at hz
    simp only [unitZ] at hz
    cases tag with
    | external =>
      injection hz with hz; subst hz
      rw [literal_iff]
      constructor
      · rintro rfl; exact .externalUnit w hu
      · intro h
        cases h with
        | externalUnit _ _ => rfl
        | external _ kvs x _ h => rw [hu] at h; cases h
    | internal t =>
      rw [one t z hz]
      constructor
      · rintro ⟨kvs, rfl, h⟩; exact .internalUnit t w kvs hu h
      · intro h
        cases h with
        | internalUnit _ _ kvs _ h => exact ⟨kvs, rfl, h⟩
        | internal _ _ kvs _ h => exact ⟨kvs, rfl, h⟩
        | internalNewtype _ _ _ kvs _ h => exact ⟨kvs, rfl, h⟩
    | adjacent t c =>
      rw [one t z hz]
      constructor
      · rintro ⟨kvs, rfl, h⟩; exact .adjacentUnit t c w kvs hu h
      · intro h
        cases h with
        | adjacentUnit _ _ _ kvs _ h => exact ⟨kvs, rfl, h⟩
        | adjacent _ _ _ kvs _ h => exact ⟨kvs, rfl, h⟩
    | untagged =>
      injection hz with hz; subst hz
      rw [null_iff]
      constructor
      · rintro rfl; exact .untaggedUnit w hu
      · intro h
        cases h with
        | untaggedUnit _ _ => rfl
        | untagged _ _ h => rw [hu] at h; cases h
  · obtain ⟨he, ha, hun⟩ := variant_body (rec := rec) hu hne tag
    -- the payload
    have pay : ∀ z, bodyZ rec w.style (keptFields w.fields) = some z → ∀ v,
        (Accepts E z v ↔ Payload ok w.style w.fields v) := fun z hz v => payload_iff hz htup hok
    cases tag with
    | external =>
      rw [he rfl] at hz
      obtain ⟨zs, _, _, h2⟩ := objZ_some hz
      obtain ⟨zb, _, hzb⟩ := All2.mem_left h2 List.mem_cons_self
      simp only at hzb
      rw [objZ_iff hz]
      constructor
      · rintro ⟨kvs, rfl, h⟩
        have hp := (pay zb hzb _).1 (h _ List.mem_cons_self zb hzb)
        exact .external w kvs _ (prop_objGet (payload_defined (P := P) htag hnu hp)) hp
      · intro h
        cases h with
        | externalUnit _ h => exact absurd h hu
        | external _ kvs x hx h =>
          refine ⟨kvs, rfl, fun p hp z hz => ?_⟩
          rw [List.mem_singleton] at hp
          subst hp
          simp only at hz ⊢
          rw [objGet_prop hx]
          exact (pay z hz x).2 h
    | adjacent t c =>
      rw [ha t c rfl] at hz
      obtain ⟨zs, _, _, h2⟩ := objZ_some hz
      obtain ⟨zb, _, hzb⟩ := All2.mem_left h2 (List.mem_cons_of_mem _ List.mem_cons_self)
      simp only at hzb
      rw [objZ_iff hz]
      constructor
      · rintro ⟨kvs, rfl, h⟩
        have hl := literal_iff.1 (h _ List.mem_cons_self _ rfl)
        simp only at hl
        have hp := (pay zb hzb _).1 (h _ (List.mem_cons_of_mem _ List.mem_cons_self) zb hzb)
        exact .adjacent t c w kvs _ (by rw [prop_objGet (by rw [hl]; exact strne _), hl])
          (prop_objGet (payload_defined (P := P) htag hnu hp)) hp
      · intro h
        cases h with
        | adjacentUnit _ _ _ _ h => exact absurd h hu
        | adjacent _ _ _ kvs x h1 hx h =>
          refine ⟨kvs, rfl, fun p hp z hz => ?_⟩
          rcases List.mem_cons.1 hp with rfl | hp
          · injection hz with hz; subst hz
            exact literal_iff.2 (objGet_prop h1)
          · rw [List.mem_singleton] at hp
            subst hp
            simp only at hz ⊢
            rw [objGet_prop hx]
            exact (pay z hz x).2 h
    | untagged =>
      rw [hun rfl] at hz
      rw [pay z hz v]
      constructor
      · exact fun h => .untagged w v h
      · intro h
        cases h with
        | untaggedUnit _ h => exact absurd h hu
        | untagged _ _ h => exact h
    | internal t =>
      have hst : w.style = .named := by
        cases hs : w.style with
        | unit => exact absurd hs hu
        | tuple => exact absurd hs htag
        | named => rfl
      have hz : objZ ((t, some (.literal w.name)) :: (keptFields w.fields).map (fun f => (f.name, vfieldZ rec f))) =
          some z := by
        unfold variantZ at hz
        rw [hst] at hz
        exact hz
      rw [objZ_iff hz]
      obtain ⟨zs, _, hnd, h2⟩ := objZ_some hz
      have fld : ∀ kvs, (∀ p ∈ (keptFields w.fields).map (fun f => (f.name, vfieldZ rec f)), ∀ z, p.2 = some z →
          Accepts E z (objGet kvs p.1)) ↔ Payload ok .named w.fields (.obj kvs) := by
        intro kvs
        constructor
        · intro h
          refine .named _ _ fun f hf hs => ?_
          have hk := kept_keep hf hs
          obtain ⟨z', _, hz'⟩ := All2.mem_left h2 (List.mem_cons_of_mem _ (List.mem_map.2 ⟨f, hk, rfl⟩))
          exact (vfield_iff hz' (hok f hk)).1 (h _ (List.mem_map.2 ⟨f, hk, rfl⟩) z' hz')
        · intro h p hp z hz
          obtain ⟨f, hf, rfl⟩ := List.mem_map.1 hp
          have := List.mem_filter.1 hf
          cases h with
          | named _ _ h => exact (vfield_iff hz (hok f hf)).2 (h f this.1 (by simpa using this.2))
      constructor
      · rintro ⟨kvs, rfl, h⟩
        have hl := literal_iff.1 (h _ List.mem_cons_self _ rfl)
        simp only at hl
        exact .internal t w kvs hst (by rw [prop_objGet (by rw [hl]; exact strne _), hl])
          ((fld kvs).1 fun p hp => h p (List.mem_cons_of_mem _ hp))
      · intro h
        cases h with
        | internalUnit _ _ _ h => exact absurd h hu
        | internalNewtype _ _ _ _ h => exact absurd h htag
        | internal _ _ kvs _ h1 h =>
          refine ⟨kvs, rfl, fun p hp z hz => ?_⟩
          rcases List.mem_cons.1 hp with rfl | hp
          · injection hz with hz; subst hz
            exact literal_iff.2 (objGet_prop h1)
          · exact (fld kvs).2 h p hp z hz

/-- The schema of an enum. -/
theorem enum_iff {P : Program} {e : EnumDecl} {z : ZSchema} (hz : enumZ rec e = some z) (hnt : NoThrow (.enum e))
    {v : JsVal} (he : ∀ w ∈ e.kept, ∀ z, variantZ rec e.tag w = some z → Ends E z v)
    (hsv : ∀ w ∈ e.kept, ShapedVariant P e.tag w)
    (hok : ∀ w ∈ e.kept, ∀ f ∈ keptFields w.fields, ∀ z, rec .inlineSchema f.ty = some z → ∀ v,
      Accepts E z v ↔ ok f.ty v)
    (hnu : ∀ w ∈ e.kept, ∀ f ∈ keptFields w.fields, NeverUndef P f.ty → ¬ ok f.ty .undefined) :
    Accepts E z v ↔ ∃ w ∈ e.kept, Shape ok e.tag w v := by
  constructor
  · rintro ⟨r, k, h⟩
    obtain ⟨w, hw, z', hz', h⟩ := enum_parse hz h
    exact ⟨w, hw, (variant_iff hz' (hsv w hw) (hok w hw) (hnu w hw)).1 ⟨r, k, h⟩⟩
  · rintro ⟨w, hw, h⟩
    refine accepts_enum hz hnt he hw (fun z' hz' => (variant_iff hz' (hsv w hw) (hok w hw) (hnu w hw)).2 h) ?_
    intro t ht
    generalize e.tag = tag at h ht
    cases h with
    | externalUnit _ _ => rcases ht with h | ⟨_, h⟩ <;> cases h
    | external _ _ _ _ _ => rcases ht with h | ⟨_, h⟩ <;> cases h
    | untaggedUnit _ _ => rcases ht with h | ⟨_, h⟩ <;> cases h
    | untagged _ _ _ => rcases ht with h | ⟨_, h⟩ <;> cases h
    | internalUnit _ _ kvs _ h =>
      rcases ht with e | ⟨_, e⟩ <;> cases e
      exact ⟨kvs, rfl, objGet_prop h⟩
    | internal _ _ kvs _ h =>
      rcases ht with e | ⟨_, e⟩ <;> cases e
      exact ⟨kvs, rfl, objGet_prop h⟩
    | internalNewtype _ _ _ kvs _ h =>
      rcases ht with e | ⟨_, e⟩ <;> cases e
      exact ⟨kvs, rfl, objGet_prop h⟩
    | adjacentUnit _ _ _ kvs _ h =>
      rcases ht with e | ⟨_, e⟩ <;> cases e
      exact ⟨kvs, rfl, objGet_prop h⟩
    | adjacent _ _ _ kvs _ h =>
      rcases ht with e | ⟨_, e⟩ <;> cases e
      exact ⟨kvs, rfl, objGet_prop h⟩

end

end Verif.Zod
