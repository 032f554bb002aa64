import Verif.Zod.ExpandDe

/-!
# What serde writes, when a type is written instead of the alias for it (proof helper)
-/

set_option linter.unusedSectionVars false

namespace Verif.Zod
open Verif Verif.Js Verif.Schema Verif.SchemaSpec Verif.Spec

variable {P : Program} {a : Nat} {u : Ty} {odd : Bool}

theorem serFields_expand (fs : List Field) : serFields (fs.map (Field.mapTy (expand a u))) = (serFields fs).map (Field.mapTy (expand a u)) := by
  unfold serFields
  rw [List.filter_map]
  rfl

theorem innerSer_expand (hp : isPhantom u = false) (fs : List Field) :
    innerSer (fs.map (Field.mapTy (expand a u))) = (innerSer fs).map (Field.mapTy (expand a u)) := by
  unfold innerSer
  rw [serFields_expand, List.filter_map]
  congr 1
  refine List.filter_congr (fun f _ => ?_)
  simp [Field.mapTy, expand_phantom hp]

theorem serStyle_expand (v : Variant) : serStyle (Variant.mapTy (expand a u) v) = serStyle v := by
  unfold serStyle
  rw [show (Variant.mapTy (expand a u) v).style = v.style from rfl, show (Variant.mapTy (expand a u) v).fields = v.fields.map (Field.mapTy (expand a u)) from rfl]
  match v.style, v.fields with
  | .tuple, [] => rfl
  | .tuple, [f] => rfl
  | .tuple, _ :: _ :: _ => rfl
  | .named, _ => rfl
  | .unit, _ => rfl

theorem chosen_expand {fs gs : List Field} (h : Chosen fs gs) :
    Chosen (fs.map (Field.mapTy (expand a u))) (gs.map (Field.mapTy (expand a u))) := by
  induction h with
  | nil => exact .nil
  | keep f fs gs _ ih => exact .keep _ _ _ ih
  | drop f fs gs hf _ ih =>
    refine .drop _ _ _ ?_ ih
    rcases hf with hf | ⟨hf, t, ht⟩
    · exact .inl hf
    · exact .inr ⟨hf, expand a u t, by simp [Field.mapTy, ht, expand]⟩

theorem expand_into {d : Decl} : Decl.into (Decl.mapTy (expand a u) d) = Decl.into d := by cases d <;> rfl

section
variable (hs : StandsFor P a u) (hu : NotIn a u) (hp : isPhantom u = false)
  (hi : ∀ d, P[a]? = some d → Decl.into d = some u ∨ (Decl.from_ d = .none ∧ Decl.into d = none))
  (hser : ∀ s, P[a]? = some (.struct s) → serFields s.fields = keptFields s.fields)
  (hin : ∀ (i : Nat) d t, P[i]? = some d → Decl.into d = some t → NotIn a t)
include hs hu hp hi hser hin

/-- From the alias to what it stands for. -/
theorem ser_named_expand {i : Nat} {j : Json} (h : Ser (expandAll a u P) odd (.named i) j) :
    Ser (expandAll a u P) odd (expand a u (.named i)) j := by
  by_cases hia : i = a
  · subst hia
    rw [expand_alias]
    refine (Props.C90_written _ i u (standsFor_expand hs hu hp) ?_ ?_ odd j).1 h
    · intro d' hd'
      obtain ⟨d, hd, rfl⟩ := decl_back hd'
      rw [expand_into]
      rcases hi d hd with h | ⟨h1, h2⟩
      · exact .inl h
      · exact .inr ⟨by rw [expand_from h1]; rfl, h2⟩
    · intro s' hs'
      obtain ⟨s, h, rfl⟩ := expandStruct_back hs'
      show serFields (s.fields.map _) = keptFields (s.fields.map _)
      rw [serFields_expand, keptFields_expand, hser s h]
  · rw [expand_named_ne hia]; exact h

mutual
theorem ser_expand : ∀ {t : Ty} {j : Json}, Ser P odd t j → Ser (expandAll a u P) odd (expand a u t) j
  | _, _, .string s => by rw [expand]; exact .string s
  | _, _, .strRef s => by rw [expand]; exact .strRef s
  | _, _, .smolStr s => by rw [expand]; exact .smolStr s
  | _, _, .char c h => by rw [expand]; exact .char c h
  | _, _, .bool b => by rw [expand]; exact .bool b
  | _, _, .unit => by rw [expand]; exact .unit
  | _, _, .ipv4 p a b c d h => by rw [expand]; exact .ipv4 p a b c d h
  | _, _, .ipv6 p o g h1 h2 h3 => by rw [expand]; exact .ipv6 p o g h1 h2 h3
  | _, _, .int p lo hi i h1 h2 h3 => by rw [expand]; exact .int p lo hi i h1 h2 h3
  | _, _, .float p n h => by rw [expand]; exact .float p n h
  | _, _, .nonFinite p h1 h2 => by rw [expand]; exact .nonFinite p h1 h2
  | _, _, .wrap w t j hw h => by rw [expand]; exact .wrap w _ _ hw (ser_expand h)
  | _, _, .phantom t => by rw [expand]; exact .phantom _
  | _, _, .weak t => by rw [expand]; exact .weak _
  | _, _, .none t => by rw [expand]; exact .none _
  | _, _, .some t j h => by rw [expand]; exact .some _ _ (ser_expand h)
  | _, _, .vec t js h => by rw [expand]; exact .vec _ js (fun j hm => ser_expand (h j hm))
  | _, _, .array n t js hl h => by rw [expand]; exact .array n _ js hl (fun j hm => ser_expand (h j hm))
  | _, _, .hashSet t js h => by rw [expand]; exact .hashSet _ js (fun j hm => ser_expand (h j hm))
  | _, _, .btreeSet t js h => by rw [expand]; exact .btreeSet _ js (fun j hm => ser_expand (h j hm))
  | _, _, .hashMap p t kvs hp h => by rw [expand, expand]; exact .hashMap p _ kvs hp (fun kv hm => ser_expand (h kv hm))
  | _, _, .btreeMap p t kvs hp h => by rw [expand, expand]; exact .btreeMap p _ kvs hp (fun kv hm => ser_expand (h kv hm))
  | _, _, .tuple ts js h => by rw [expand_tuple]; exact .tuple _ js (sers_expand h)
  | _, _, .ok t e j h => by rw [expand]; exact .ok _ _ j (ser_expand h)
  | _, _, .err t e j h => by rw [expand]; exact .err _ _ j (ser_expand h)
  | _, _, .into i d t j h1 h2 h => by
    have ih := ser_expand h
    rw [hin i d t h1 h2 u] at ih
    exact ser_named_expand hs hu hp hi hser hin (.into i _ t j (expandAll_get h1) (by rw [expand_into]; exact h2) ih)
  | _, _, .transparent i s f j h1 h2 h3 h4 h => by
    have ih := ser_expand h
    refine ser_named_expand hs hu hp hi hser hin (.transparent i _ (Field.mapTy _ f) j (expand_struct h1) h2 h3 ?_ ih)
    show innerSer (s.fields.map _) = _
    rw [innerSer_expand hp, h4]
    rfl
  | _, _, .struct i s j h1 h2 h3 h =>
    ser_named_expand hs hu hp hi hser hin (.struct i _ j (expand_struct h1) h2 h3 (bodySer_expand h))
  | _, _, .externalUnit i e v h1 h2 h3 h4 h5 h6 =>
    ser_named_expand hs hu hp hi hser hin (.externalUnit i _ (Variant.mapTy (expand a u) v) (expand_enum h1) h2 h3
      (List.mem_map.2 ⟨v, h4, rfl⟩) h5 (by rw [serStyle_expand]; exact h6))
  | _, _, .external i e v j h1 h2 h3 h4 h5 h => by
    have ih := bodySer_expand h
    rw [← serStyle_expand (a := a) (u := u)] at ih
    exact ser_named_expand hs hu hp hi hser hin (.external i _ (Variant.mapTy (expand a u) v) j (expand_enum h1) h2 h3
      (List.mem_map.2 ⟨v, h4, rfl⟩) h5 ih)
  | _, _, .internalUnit i e v tag h1 h2 h3 h4 h5 h6 =>
    ser_named_expand hs hu hp hi hser hin (.internalUnit i _ (Variant.mapTy (expand a u) v) tag (expand_enum h1) h2 h3
      (List.mem_map.2 ⟨v, h4, rfl⟩) h5 (by rw [serStyle_expand]; exact h6))
  | _, _, .internal i e v tag kvs h1 h2 h3 h4 h5 h6 h => by
    have ih := fieldsSer_expand h
    exact ser_named_expand hs hu hp hi hser hin (.internal i _ (Variant.mapTy (expand a u) v) tag kvs (expand_enum h1) h2 h3
      (List.mem_map.2 ⟨v, h4, rfl⟩) h5 (by rw [serStyle_expand]; exact h6) ih)
  | _, _, .internalNewtype i e v tag f kvs h1 h2 h3 h4 h5 h6 h7 h => by
    have ih := ser_expand h
    exact ser_named_expand hs hu hp hi hser hin (.internalNewtype i _ (Variant.mapTy (expand a u) v) tag (Field.mapTy _ f) kvs (expand_enum h1) h2 h3
      (List.mem_map.2 ⟨v, h4, rfl⟩) h5 (by rw [serStyle_expand]; exact h6) (by simp [Variant.mapTy, h7]) ih)
  | _, _, .adjacentUnit i e v tag content h1 h2 h3 h4 h5 h6 =>
    ser_named_expand hs hu hp hi hser hin (.adjacentUnit i _ (Variant.mapTy (expand a u) v) tag content (expand_enum h1) h2 h3
      (List.mem_map.2 ⟨v, h4, rfl⟩) h5 (by rw [serStyle_expand]; exact h6))
  | _, _, .adjacent i e v tag content j h1 h2 h3 h4 h5 h => by
    have ih := bodySer_expand h
    rw [← serStyle_expand (a := a) (u := u)] at ih
    exact ser_named_expand hs hu hp hi hser hin (.adjacent i _ (Variant.mapTy (expand a u) v) tag content j (expand_enum h1) h2 h3
      (List.mem_map.2 ⟨v, h4, rfl⟩) h5 ih)
  | _, _, .untaggedUnit i e v h1 h2 h3 h4 h5 h6 =>
    ser_named_expand hs hu hp hi hser hin (.untaggedUnit i _ (Variant.mapTy (expand a u) v) (expand_enum h1) h2 h3
      (List.mem_map.2 ⟨v, h4, rfl⟩) h5 (by rw [serStyle_expand]; exact h6))
  | _, _, .untagged i e v j h1 h2 h3 h4 h5 h => by
    have ih := bodySer_expand h
    rw [← serStyle_expand (a := a) (u := u)] at ih
    exact ser_named_expand hs hu hp hi hser hin (.untagged i _ (Variant.mapTy (expand a u) v) j (expand_enum h1) h2 h3
      (List.mem_map.2 ⟨v, h4, rfl⟩) h5 ih)

theorem sers_expand : ∀ {ts : List Ty} {js : List Json}, All2 (Ser P odd) ts js → All2 (Ser (expandAll a u P) odd) (ts.map (expand a u)) js
  | _, _, .nil => .nil
  | _, _, .cons h1 h2 => .cons (ser_expand h1) (sers_expand h2)

theorem bodySer_expand : ∀ {st : Style} {fs : List Field} {j : Json}, SerBody P odd st fs j →
    SerBody (expandAll a u P) odd st (fs.map (Field.mapTy (expand a u))) j
  | _, _, _, .newtype f j h => .newtype _ j (ser_expand h)
  | _, _, _, .tuple fs gs js hl hc h => by
    have ih := sers_expand h
    refine .tuple _ (gs.map (Field.mapTy (expand a u))) js (by rw [List.length_map]; exact hl) ?_ ?_
    · rw [serFields_expand]; exact chosen_expand hc
    · rw [List.map_map] at ih ⊢
      exact ih
  | _, _, _, .named fs kvs h => .named _ kvs (fieldsSer_expand h)

theorem fieldsSer_expand : ∀ {fs : List Field} {kvs : List (Str × Json)}, SerFields P odd fs kvs →
    SerFields (expandAll a u P) odd (fs.map (Field.mapTy (expand a u))) kvs
  | _, _, .nil => .nil
  | _, _, .skip f fs kvs h1 h => .skip _ _ kvs h1 (fieldsSer_expand h)
  | _, _, .absent f fs kvs t h1 h2 h3 h => .absent _ _ kvs (expand a u t) h1 h2 (by simp [Field.mapTy, h3, expand]) (fieldsSer_expand h)
  | _, _, .omitted f fs kvs h1 h2 h => .omitted _ _ kvs h1 h2 (fieldsSer_expand h)
  | _, _, .present f fs kvs t j h1 h2 h3 h4 h5 h =>
    .present (Field.mapTy (expand a u) f) _ kvs (expand a u t) j h1 h2 (by simp [Field.mapTy, h3, expand]) h4 (ser_expand h5) (fieldsSer_expand h)
  | _, _, .field f fs kvs j h1 h2 h3 h4 h => .field (Field.mapTy (expand a u) f) _ kvs j h1 h2 h3 (ser_expand h4) (fieldsSer_expand h)
  | _, _, .flat f fs kvs' kvs h1 h2 h3 h => .flat _ _ kvs' kvs h1 h2 (ser_expand h3) (fieldsSer_expand h)
  | _, _, .flatNone f fs kvs t h1 h2 h3 h => .flatNone _ _ kvs (expand a u t) h1 h2 (by simp [Field.mapTy, h3, expand]) (fieldsSer_expand h)
end

end

/-! ## Back -/

/-- Which fields are written does not depend on the change, if no `Option` appears. -/
theorem chosen_back (ho : ∀ k y, expand a u k = .option y → ∃ x, k = .option x ∧ expand a u x = y) {fs' gs' : List Field} (h : Chosen fs' gs') :
    ∀ fs, fs.map (Field.mapTy (expand a u)) = fs' → ∃ gs, gs' = gs.map (Field.mapTy (expand a u)) ∧ Chosen fs gs := by
  induction h with
  | nil => intro fs e; rw [List.map_eq_nil_iff.1 e]; exact ⟨[], rfl, .nil⟩
  | keep f' fs' gs' _ ih =>
    intro fs e
    obtain ⟨f, r, rfl, rfl, e2⟩ := List.map_eq_cons_iff.1 e
    obtain ⟨gs, rfl, h⟩ := ih r e2
    exact ⟨f :: gs, rfl, .keep f r gs h⟩
  | drop f' fs' gs' hf _ ih =>
    intro fs e
    obtain ⟨f, r, rfl, rfl, e2⟩ := List.map_eq_cons_iff.1 e
    obtain ⟨gs, rfl, h⟩ := ih r e2
    refine ⟨gs, rfl, .drop f r gs ?_ h⟩
    rcases hf with hf | ⟨hf, t, ht⟩
    · exact .inl hf
    · obtain ⟨x, hx, _⟩ := ho f.ty t ht
      exact .inr ⟨hf, x, hx⟩

section
variable (hs : StandsFor P a u) (hu : NotIn a u) (hp : isPhantom u = false)
  (hi : ∀ d, P[a]? = some d → Decl.into d = some u ∨ (Decl.from_ d = .none ∧ Decl.into d = none))
  (hser : ∀ s, P[a]? = some (.struct s) → serFields s.fields = keptFields s.fields)
  (hin : ∀ (i : Nat) d t, P[i]? = some d → Decl.into d = some t → NotIn a t)
include hs hu hp hi hser hin

omit hp hin in
theorem ser_down {t' : Ty} {j : Json} (h : ∀ t, t ≠ .named a → expand a u t = t' → Ser P odd t j) : ∀ t, expand a u t = t' → Ser P odd t j := by
  intro t e
  by_cases ht : t = .named a
  · subst ht
    rw [expand_alias] at e
    subst e
    exact (Props.C90_written P a u hs hi hser odd j).2 (h u (notIn_ne hu) (hu u))
  · exact h t ht e

mutual
theorem expandSer_back (hk : ∀ k p, textPrim p → expand a u k = .prim p → k = .prim p) (ho : ∀ k y, expand a u k = .option y → ∃ x, k = .option x ∧ expand a u x = y) : ∀ {t' : Ty} {j : Json}, Ser (expandAll a u P) odd t' j → ∀ t, expand a u t = t' → Ser P odd t j
  | _, _, .string s => ser_down hs hu hi hser (fun t hne e => by obtain rfl := expand_inv hne e; exact .string s)
  | _, _, .strRef s => ser_down hs hu hi hser (fun t hne e => by obtain rfl := expand_inv hne e; exact .strRef s)
  | _, _, .smolStr s => ser_down hs hu hi hser (fun t hne e => by obtain rfl := expand_inv hne e; exact .smolStr s)
  | _, _, .char c h => ser_down hs hu hi hser (fun t hne e => by obtain rfl := expand_inv hne e; exact .char c h)
  | _, _, .bool b => ser_down hs hu hi hser (fun t hne e => by obtain rfl := expand_inv hne e; exact .bool b)
  | _, _, .unit => ser_down hs hu hi hser (fun t hne e => by obtain rfl := expand_inv hne e; exact .unit)
  | _, _, .ipv4 p x b c d h => ser_down hs hu hi hser (fun t hne e => by obtain rfl := expand_inv hne e; exact .ipv4 p x b c d h)
  | _, _, .ipv6 p o g h1 h2 h3 => ser_down hs hu hi hser (fun t hne e => by obtain rfl := expand_inv hne e; exact .ipv6 p o g h1 h2 h3)
  | _, _, .int p lo up i h1 h2 h3 => ser_down hs hu hi hser (fun t hne e => by obtain rfl := expand_inv hne e; exact .int p lo up i h1 h2 h3)
  | _, _, .float p n h => ser_down hs hu hi hser (fun t hne e => by obtain rfl := expand_inv hne e; exact .float p n h)
  | _, _, .nonFinite p h1 h2 => ser_down hs hu hi hser (fun t hne e => by obtain rfl := expand_inv hne e; exact .nonFinite p h1 h2)
  | _, _, .phantom t' => ser_down hs hu hi hser (fun t hne e => by obtain ⟨x, rfl, ex⟩ := expand_inv hne e; exact .phantom x)
  | _, _, .weak t' => ser_down hs hu hi hser (fun t hne e => by obtain ⟨x, rfl, ex⟩ := expand_inv hne e; exact .weak x)
  | _, _, .none t' => ser_down hs hu hi hser (fun t hne e => by obtain ⟨x, rfl, ex⟩ := expand_inv hne e; exact .none x)
  | _, _, .wrap w t' j hw h => ser_down hs hu hi hser (fun t hne e => by
      obtain ⟨x, rfl, ex⟩ := expand_inv hne e; exact .wrap w x j hw (expandSer_back hk ho h x ex))
  | _, _, .some t' j h => ser_down hs hu hi hser (fun t hne e => by obtain ⟨x, rfl, ex⟩ := expand_inv hne e; exact .some x j (expandSer_back hk ho h x ex))
  | _, _, .vec t' js h => ser_down hs hu hi hser (fun t hne e => by
      obtain ⟨x, rfl, ex⟩ := expand_inv hne e; exact .vec x js (fun j hj => expandSer_back hk ho (h j hj) x ex))
  | _, _, .hashSet t' js h => ser_down hs hu hi hser (fun t hne e => by
      obtain ⟨x, rfl, ex⟩ := expand_inv hne e; exact .hashSet x js (fun j hj => expandSer_back hk ho (h j hj) x ex))
  | _, _, .btreeSet t' js h => ser_down hs hu hi hser (fun t hne e => by
      obtain ⟨x, rfl, ex⟩ := expand_inv hne e; exact .btreeSet x js (fun j hj => expandSer_back hk ho (h j hj) x ex))
  | _, _, .array n t' js hl h => ser_down hs hu hi hser (fun t hne e => by
      obtain ⟨x, rfl, ex⟩ := expand_inv hne e; exact .array n x js hl (fun j hj => expandSer_back hk ho (h j hj) x ex))
  | _, _, .hashMap p t' kvs hp' h => ser_down hs hu hi hser (fun t hne e => by
      obtain ⟨l, x, rfl, el, ex⟩ := expand_inv hne e
      have := hk l p hp' el
      subst this
      exact .hashMap p x kvs hp' (fun j hj => expandSer_back hk ho (h j hj) x ex))
  | _, _, .btreeMap p t' kvs hp' h => ser_down hs hu hi hser (fun t hne e => by
      obtain ⟨l, x, rfl, el, ex⟩ := expand_inv hne e
      have := hk l p hp' el
      subst this
      exact .btreeMap p x kvs hp' (fun j hj => expandSer_back hk ho (h j hj) x ex))
  | _, _, .tuple ts js h => ser_down hs hu hi hser (fun t hne e => by
      obtain ⟨xs, rfl, ex⟩ := expand_inv hne e; exact .tuple xs js (sers_back hk ho h xs ex))
  | _, _, .ok t' e' j h => ser_down hs hu hi hser (fun t hne e => by
      obtain ⟨x, w, rfl, ex, _⟩ := expand_inv hne e; exact .ok x w j (expandSer_back hk ho h x ex))
  | _, _, .err t' e' j h => ser_down hs hu hi hser (fun t hne e => by
      obtain ⟨x, w, rfl, _, ex⟩ := expand_inv hne e; exact .err x w j (expandSer_back hk ho h w ex))
  | _, _, .into i d' t' j h1 h2 h => ser_down hs hu hi hser (fun t hne e => by
      obtain rfl := expand_inv hne e
      have ih := expandSer_back hk ho h
      obtain ⟨d, hd, rfl⟩ := decl_back h1
      rw [expand_into] at h2
      exact .into i d t' j hd h2 (ih t' (hin i d t' hd h2 u)))
  | _, _, .transparent i s' f' j h1 h2 h3 h4 h => ser_down hs hu hi hser (fun t hne e => by
      obtain rfl := expand_inv hne e
      have ih := expandSer_back hk ho h
      obtain ⟨s, hd, rfl⟩ := expandStruct_back h1
      have hi : innerSer (s.fields.map (Field.mapTy (expand a u))) = [f'] := h4
      rw [innerSer_expand hp] at hi
      obtain ⟨f, hfs, rfl⟩ := List.map_eq_singleton_iff.1 hi
      exact .transparent i s f j hd h2 h3 hfs (ih f.ty rfl))
  | _, _, .struct i s' j h1 h2 h3 h => ser_down hs hu hi hser (fun t hne e => by
      obtain rfl := expand_inv hne e
      have ih := bodySer_back hk ho h
      obtain ⟨s, hd, rfl⟩ := expandStruct_back h1
      exact .struct i s j hd h2 h3 (ih _ rfl))
  | _, _, .externalUnit i e' v' h1 h2 h3 h4 h5 h6 => ser_down hs hu hi hser (fun t hne e => by
      obtain rfl := expand_inv hne e
      obtain ⟨e, hd, rfl⟩ := enum_back h1
      obtain ⟨v, hv, rfl⟩ := List.mem_map.1 h4
      rw [serStyle_expand] at h6
      exact .externalUnit i e v hd h2 h3 hv h5 h6)
  | _, _, .external i e' v' j h1 h2 h3 h4 h5 h => ser_down hs hu hi hser (fun t hne e => by
      obtain rfl := expand_inv hne e
      have ih := bodySer_back hk ho h
      obtain ⟨e, hd, rfl⟩ := enum_back h1
      obtain ⟨v, hv, rfl⟩ := List.mem_map.1 h4
      rw [serStyle_expand] at ih
      exact .external i e v j hd h2 h3 hv h5 (ih _ rfl))
  | _, _, .internalUnit i e' v' tag h1 h2 h3 h4 h5 h6 => ser_down hs hu hi hser (fun t hne e => by
      obtain rfl := expand_inv hne e
      obtain ⟨e, hd, rfl⟩ := enum_back h1
      obtain ⟨v, hv, rfl⟩ := List.mem_map.1 h4
      rw [serStyle_expand] at h6
      exact .internalUnit i e v tag hd h2 h3 hv h5 h6)
  | _, _, .internal i e' v' tag kvs h1 h2 h3 h4 h5 h6 h => ser_down hs hu hi hser (fun t hne e => by
      obtain rfl := expand_inv hne e
      have ih := fieldsSer_back hk ho h
      obtain ⟨e, hd, rfl⟩ := enum_back h1
      obtain ⟨v, hv, rfl⟩ := List.mem_map.1 h4
      rw [serStyle_expand] at h6
      exact .internal i e v tag kvs hd h2 h3 hv h5 h6 (ih _ rfl))
  | _, _, .internalNewtype i e' v' tag f' kvs h1 h2 h3 h4 h5 h6 h7 h => ser_down hs hu hi hser (fun t hne e => by
      obtain rfl := expand_inv hne e
      have ih := expandSer_back hk ho h
      obtain ⟨e, hd, rfl⟩ := enum_back h1
      obtain ⟨v, hv, rfl⟩ := List.mem_map.1 h4
      rw [serStyle_expand] at h6
      have h7 : v.fields.map (Field.mapTy (expand a u)) = [f'] := h7
      obtain ⟨f, hfs, rfl⟩ := List.map_eq_singleton_iff.1 h7
      exact .internalNewtype i e v tag f kvs hd h2 h3 hv h5 h6 hfs (ih f.ty rfl))
  | _, _, .adjacentUnit i e' v' tag content h1 h2 h3 h4 h5 h6 => ser_down hs hu hi hser (fun t hne e => by
      obtain rfl := expand_inv hne e
      obtain ⟨e, hd, rfl⟩ := enum_back h1
      obtain ⟨v, hv, rfl⟩ := List.mem_map.1 h4
      rw [serStyle_expand] at h6
      exact .adjacentUnit i e v tag content hd h2 h3 hv h5 h6)
  | _, _, .adjacent i e' v' tag content j h1 h2 h3 h4 h5 h => ser_down hs hu hi hser (fun t hne e => by
      obtain rfl := expand_inv hne e
      have ih := bodySer_back hk ho h
      obtain ⟨e, hd, rfl⟩ := enum_back h1
      obtain ⟨v, hv, rfl⟩ := List.mem_map.1 h4
      rw [serStyle_expand] at ih
      exact .adjacent i e v tag content j hd h2 h3 hv h5 (ih _ rfl))
  | _, _, .untaggedUnit i e' v' h1 h2 h3 h4 h5 h6 => ser_down hs hu hi hser (fun t hne e => by
      obtain rfl := expand_inv hne e
      obtain ⟨e, hd, rfl⟩ := enum_back h1
      obtain ⟨v, hv, rfl⟩ := List.mem_map.1 h4
      rw [serStyle_expand] at h6
      exact .untaggedUnit i e v hd h2 h3 hv h5 h6)
  | _, _, .untagged i e' v' j h1 h2 h3 h4 h5 h => ser_down hs hu hi hser (fun t hne e => by
      obtain rfl := expand_inv hne e
      have ih := bodySer_back hk ho h
      obtain ⟨e, hd, rfl⟩ := enum_back h1
      obtain ⟨v, hv, rfl⟩ := List.mem_map.1 h4
      rw [serStyle_expand] at ih
      exact .untagged i e v j hd h2 h3 hv h5 (ih _ rfl))

theorem sers_back (hk : ∀ k p, textPrim p → expand a u k = .prim p → k = .prim p) (ho : ∀ k y, expand a u k = .option y → ∃ x, k = .option x ∧ expand a u x = y) : ∀ {ts' : List Ty} {js : List Json}, All2 (Ser (expandAll a u P) odd) ts' js →
    ∀ ts, ts.map (expand a u) = ts' → All2 (Ser P odd) ts js
  | _, _, .nil => fun ts e => by rw [List.map_eq_nil_iff.1 e]; exact .nil
  | _, _, .cons h1 h2 => fun ts e => by
    have i1 := expandSer_back hk ho h1
    have i2 := sers_back hk ho h2
    cases ts with
    | nil => cases e
    | cons t ts =>
      rw [List.map_cons] at e
      injection e with e1 e2
      exact .cons (i1 t e1) (i2 ts e2)

theorem bodySer_back (hk : ∀ k p, textPrim p → expand a u k = .prim p → k = .prim p) (ho : ∀ k y, expand a u k = .option y → ∃ x, k = .option x ∧ expand a u x = y) : ∀ {st : Style} {fs' : List Field} {j : Json},
    SerBody (expandAll a u P) odd st fs' j → ∀ fs, fs.map (Field.mapTy (expand a u)) = fs' → SerBody P odd st fs j
  | _, _, _, .newtype f' j h => fun fs e => by
    have ih := expandSer_back hk ho h
    obtain ⟨f, rfl, rfl⟩ := List.map_eq_singleton_iff.1 e
    exact .newtype f j (ih f.ty rfl)
  | _, _, _, .tuple fs' gs' js hl hc h => fun fs e => by
    have ih := sers_back hk ho h
    subst e
    rw [List.length_map] at hl
    rw [serFields_expand] at hc
    obtain ⟨gs, rfl, hg⟩ := chosen_back ho hc _ rfl
    refine .tuple fs gs js hl hg (ih _ ?_)
    rw [List.map_map, List.map_map]
    rfl
  | _, _, _, .named fs' kvs h => fun fs e => .named fs kvs (fieldsSer_back hk ho h fs e)

theorem fieldsSer_back (hk : ∀ k p, textPrim p → expand a u k = .prim p → k = .prim p) (ho : ∀ k y, expand a u k = .option y → ∃ x, k = .option x ∧ expand a u x = y) : ∀ {fs' : List Field} {kvs : List (Str × Json)}, SerFields (expandAll a u P) odd fs' kvs →
    ∀ fs, fs.map (Field.mapTy (expand a u)) = fs' → SerFields P odd fs kvs
  | _, _, .nil => fun fs e => by rw [List.map_eq_nil_iff.1 e]; exact .nil
  | _, _, .skip f' fs' kvs h1 h => fun fs e => by
    have ih := fieldsSer_back hk ho h
    obtain ⟨f, fs, rfl, rfl, e2⟩ := List.map_eq_cons_iff.1 e
    exact .skip f fs kvs h1 (ih fs e2)
  | _, _, .absent f' fs' kvs t h1 h2 h3 h => fun fs e => by
    have ih := fieldsSer_back hk ho h
    obtain ⟨f, fs, rfl, rfl, e2⟩ := List.map_eq_cons_iff.1 e
    obtain ⟨x, hx, ex⟩ := ho f.ty _ h3
    exact .absent f fs kvs x h1 h2 hx (ih fs e2)
  | _, _, .omitted f' fs' kvs h1 h2 h => fun fs e => by
    have ih := fieldsSer_back hk ho h
    obtain ⟨f, fs, rfl, rfl, e2⟩ := List.map_eq_cons_iff.1 e
    exact .omitted f fs kvs h1 h2 (ih fs e2)
  | _, _, .present f' fs' kvs t j h1 h2 h3 h4 h5 h => fun fs e => by
    have ih := fieldsSer_back hk ho h
    have ij := expandSer_back hk ho h5
    obtain ⟨f, fs, rfl, rfl, e2⟩ := List.map_eq_cons_iff.1 e
    obtain ⟨x, hx, ex⟩ := ho f.ty _ h3
    exact .present f fs kvs x j h1 h2 hx h4 (ij x ex) (ih fs e2)
  | _, _, .field f' fs' kvs j h1 h2 h3 h4 h => fun fs e => by
    have ih := fieldsSer_back hk ho h
    have ij := expandSer_back hk ho h4
    obtain ⟨f, fs, rfl, rfl, e2⟩ := List.map_eq_cons_iff.1 e
    exact .field f fs kvs j h1 h2 h3 (ij f.ty rfl) (ih fs e2)
  | _, _, .flat f' fs' kvs' kvs h1 h2 h3 h => fun fs e => by
    have ih := fieldsSer_back hk ho h
    have ij := expandSer_back hk ho h3
    obtain ⟨f, fs, rfl, rfl, e2⟩ := List.map_eq_cons_iff.1 e
    exact .flat f fs kvs' kvs h1 h2 (ij f.ty rfl) (ih fs e2)
  | _, _, .flatNone f' fs' kvs t h1 h2 h3 h => fun fs e => by
    have ih := fieldsSer_back hk ho h
    obtain ⟨f, fs, rfl, rfl, e2⟩ := List.map_eq_cons_iff.1 e
    obtain ⟨x, hx, ex⟩ := ho f.ty _ h3
    exact .flatNone f fs kvs x h1 h2 hx (ih fs e2)
end

end

end Verif.Zod
