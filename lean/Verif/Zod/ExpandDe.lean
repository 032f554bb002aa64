import Verif.Props.StandsFor
import Verif.Zod.Expand

/-!
# serde, when a type is written instead of the alias for it (proof helper)
-/

set_option linter.unusedSectionVars false

namespace Verif.Zod
open Verif Verif.Js Verif.Schema Verif.SchemaSpec Verif.Spec

variable {P : Program} {a : Nat} {u : Ty}

theorem expand_struct {i : Nat} {s : StructDecl} (h : P[i]? = some (.struct s)) :
    (expandAll a u P)[i]? = some (.struct (StructDecl.mapTy (expand a u) s)) := expandAll_get h

theorem expand_enum {i : Nat} {e : EnumDecl} (h : P[i]? = some (.enum e)) :
    (expandAll a u P)[i]? = some (.enum (EnumDecl.mapTyZ (expand a u) e)) := expandAll_get h

theorem expand_from {d : Decl} {x : From} (h : Decl.from_ d = x) : Decl.from_ (Decl.mapTy (expand a u) d) = From.mapTy (expand a u) x := by
  subst h; cases d <;> rfl

/-- In the changed program the alias stands for the same type. -/
theorem standsFor_expand (hs : StandsFor P a u) (hu : NotIn a u) (hp : isPhantom u = false) : StandsFor (expandAll a u P) a u := by
  have key : StandsFor (expandAll a u P) a (expand a u u) := by
    cases hs with
    | from_ d _ hd hf => exact .from_ a _ _ (expandAll_get hd) (expand_from hf)
    | tryFrom d _ hd hf => exact .tryFrom a _ _ (expandAll_get hd) (expand_from hf)
    | newtype s f hd hf ht hst hfs hsk hdf hfl =>
      exact .newtype a _ (Field.mapTy _ f) (expand_struct hd) (by simp [StructDecl.mapTy, hf, From.mapTy]) ht hst
        (by simp [StructDecl.mapTy, hfs]) hsk hdf hfl
    | transparent s f hd hf ht hk hdf hfl hph =>
      refine .transparent a _ (Field.mapTy _ f) (expand_struct hd) (by simp [StructDecl.mapTy, hf, From.mapTy]) ht ?_ hdf hfl ?_
      · show keptFields (s.fields.map _) = _
        unfold keptFields at hk ⊢
        rw [filter_mapTy, hk]
        rfl
      · show isPhantom (expand a f.ty f.ty) = false
        rw [hu]; exact hph
  rw [hu] at key
  exact key

theorem expand_phantom (hp : isPhantom u = false) (t : Ty) : isPhantom (expand a u t) = isPhantom t := by
  cases t with
  | named i =>
    by_cases h : i = a
    · subst h; rw [expand_alias, hp]; rfl
    · rw [expand_named_ne h]
  | wrap w t => cases w <;> simp [expand, isPhantom]
  | _ => simp [expand, isPhantom]

theorem keptFields_expand (fs : List Field) : keptFields (fs.map (Field.mapTy (expand a u))) = (keptFields fs).map (Field.mapTy (expand a u)) :=
  filter_mapTy _

theorem innerFields_expand (hp : isPhantom u = false) (fs : List Field) :
    innerFields (fs.map (Field.mapTy (expand a u))) = (innerFields fs).map (Field.mapTy (expand a u)) := by
  unfold innerFields
  rw [keptFields_expand, List.filter_map]
  congr 1
  refine List.filter_congr (fun f _ => ?_)
  simp [Field.mapTy, expand_phantom hp]

theorem plainNames_expand (fs : List Field) : plainNames (fs.map (Field.mapTy (expand a u))) = plainNames fs := by
  unfold plainNames
  rw [keptFields_expand, List.filter_map, List.flatMap_map]
  rfl

theorem deFields_expand (s : StructDecl) :
    StructDecl.deFields (StructDecl.mapTy (expand a u) s) = (StructDecl.deFields s).map (Field.mapTy (expand a u)) := by
  unfold StructDecl.deFields
  rw [show (StructDecl.mapTy (expand a u) s).dfltAll = s.dfltAll from rfl]
  split
  · show (s.fields.map _).map _ = _
    rw [List.map_map, List.map_map]
    rfl
  · rfl

theorem deStyle_expand (v : Variant) : deStyle (Variant.mapTy (expand a u) v) = deStyle v := by
  unfold deStyle
  rw [show (Variant.mapTy (expand a u) v).style = v.style from rfl, show (Variant.mapTy (expand a u) v).fields = v.fields.map (Field.mapTy (expand a u)) from rfl]
  match v.style, v.fields with
  | .tuple, [] => rfl
  | .tuple, [f] => rfl
  | .tuple, _ :: _ :: _ => rfl
  | .named, _ => rfl
  | .unit, _ => rfl

theorem firstNamed_expand {e : EnumDecl} {v : Variant} (h : FirstNamed e v) :
    FirstNamed (EnumDecl.mapTyZ (expand a u) e) (Variant.mapTy (expand a u) v) := by
  unfold FirstNamed at *
  show ((e.variants.map (Variant.mapTy (expand a u))).filter _).find? _ = _
  rw [List.filter_map, List.find?_map]
  show Option.map _ (List.find? (fun w : Variant => decide (w.name = v.name)) (List.filter (fun v => !v.skipDe) e.variants)) = _
  rw [h]
  rfl

/-- What may be missing may still be missing. -/
theorem missing_expand (hs : StandsFor P a u) (hu : NotIn a u) (hp : isPhantom u = false) {t : Ty} (h : MissingOk P t) :
    MissingOk (expandAll a u P) (expand a u t) := by
  induction h with
  | option t => rw [expand]; exact .option _
  | wrap w t hw _ ih => rw [expand]; exact .wrap w _ hw ih
  | from_ i d t hd hf _ ih =>
    by_cases hi : i = a
    · subst hi
      rw [expand_alias]
      cases hs with
      | from_ d' _ hd' hf' => rw [hd] at hd'; cases hd'; rw [hf] at hf'; cases hf'; rw [hu] at ih; exact ih
      | tryFrom d' _ hd' hf' => rw [hd] at hd'; cases hd'; rw [hf] at hf'; cases hf'
      | newtype s f hd' hf' => rw [hd] at hd'; cases hd'; rw [show Decl.from_ (.struct s) = s.from_ from rfl, hf'] at hf; cases hf
      | transparent s f hd' hf' => rw [hd] at hd'; cases hd'; rw [show Decl.from_ (.struct s) = s.from_ from rfl, hf'] at hf; cases hf
    · rw [expand_named_ne hi]
      exact .from_ i _ _ (expandAll_get hd) (expand_from hf) ih
  | transparent i s f hd hf ht hi _ ih =>
    by_cases hia : i = a
    · subst hia
      rw [expand_alias]
      cases hs with
      | from_ d' _ hd' hf' => rw [hd] at hd'; cases hd'; rw [show Decl.from_ (.struct s) = s.from_ from rfl, hf] at hf'; cases hf'
      | tryFrom d' _ hd' hf' => rw [hd] at hd'; cases hd'; rw [show Decl.from_ (.struct s) = s.from_ from rfl, hf] at hf'; cases hf'
      | newtype s' f' hd' hf' ht' => rw [hd] at hd'; cases hd'; rw [ht] at ht'; cases ht'
      | transparent s' f' hd' hf' ht' hk hdf hfl hph =>
        rw [hd] at hd'; cases hd'
        rw [innerFields_only hk hdf hph] at hi
        cases hi
        rw [hu] at ih; exact ih
    · rw [expand_named_ne hia]
      refine .transparent i _ (Field.mapTy _ f) (expand_struct hd) (by simp [StructDecl.mapTy, hf, From.mapTy]) ht ?_ ih
      show innerFields (s.fields.map _) = _
      rw [innerFields_expand hp, hi]
      rfl

section
variable (hs : StandsFor P a u) (hu : NotIn a u) (hp : isPhantom u = false) (hf : ∀ d x, P[a]? = some d → Decl.from_ d ≠ .tryFrom x)
include hs hu hp hf

omit hs hu hp in
theorem notTry_expand (d : Decl) (x : Ty) (hd : (expandAll a u P)[a]? = some d) : Decl.from_ d ≠ .tryFrom x := by
  unfold expandAll at hd
  rw [List.getElem?_map] at hd
  cases h : P[a]? with
  | none => rw [h] at hd; cases hd
  | some d0 =>
    rw [h] at hd
    cases hd
    intro e
    rw [expand_from rfl] at e
    cases h1 : Decl.from_ d0 with
    | tryFrom y => exact hf d0 y h h1
    | none => rw [h1] at e; cases e
    | from_ y => rw [h1] at e; cases e

/-- From the alias to what it stands for. -/
theorem de_named_expand {i : Nat} {j : Json} (h : De (expandAll a u P) (.named i) j) : De (expandAll a u P) (expand a u (.named i)) j := by
  by_cases hi : i = a
  · subst hi
    rw [expand_alias]
    exact (Props.C90_serde _ i u (standsFor_expand hs hu hp) (fun d x => notTry_expand hf d x) j).1 h
  · rw [expand_named_ne hi]; exact h

mutual
theorem de_expand : ∀ {t : Ty} {j : Json}, De P t j → De (expandAll a u P) (expand a u t) j
  | _, _, .string s => by rw [expand]; exact .string s
  | _, _, .smolStr s => by rw [expand]; exact .smolStr s
  | _, _, .char c => by rw [expand]; exact .char c
  | _, _, .bool b => by rw [expand]; exact .bool b
  | _, _, .unit => by rw [expand]; exact .unit
  | _, _, .int p lo hi i h1 h2 h3 => by rw [expand]; exact .int p lo hi i h1 h2 h3
  | _, _, .wide p lo hi i h1 h2 h3 h4 => by rw [expand]; exact .wide p lo hi i h1 h2 h3 h4
  | _, _, .float p n h => by rw [expand]; exact .float p n h
  | _, _, .ipv4 p a b c d h => by rw [expand]; exact .ipv4 p a b c d h
  | _, _, .ipv6 p s h hs => by rw [expand]; exact .ipv6 p s h hs
  | _, _, .wrap w t j hw h => by rw [expand]; exact .wrap w _ _ hw (de_expand h)
  | _, _, .phantom t => by rw [expand]; exact .phantom _
  | _, _, .none t => by rw [expand]; exact .none _
  | _, _, .some t j h => by rw [expand]; exact .some _ _ (de_expand h)
  | _, _, .vec t js h => by rw [expand]; exact .vec _ js (fun j hm => de_expand (h j hm))
  | _, _, .array n t js hl h => by rw [expand]; exact .array n _ js hl (fun j hm => de_expand (h j hm))
  | _, _, .hashSet t js h => by rw [expand]; exact .hashSet _ js (fun j hm => de_expand (h j hm))
  | _, _, .btreeSet t js h => by rw [expand]; exact .btreeSet _ js (fun j hm => de_expand (h j hm))
  | _, _, .hashMap p t kvs hp h => by rw [expand, expand]; exact .hashMap p _ kvs hp (fun kv hm => de_expand (h kv hm))
  | _, _, .btreeMap p t kvs hp h => by rw [expand, expand]; exact .btreeMap p _ kvs hp (fun kv hm => de_expand (h kv hm))
  | _, _, .tuple ts js h => by rw [expand_tuple]; exact .tuple _ js (des_expand h)
  | _, _, .ok t e j h => by rw [expand]; exact .ok _ _ j (de_expand h)
  | _, _, .err t e j h => by rw [expand]; exact .err _ _ j (de_expand h)
  | _, _, .from_ i d t j h1 h2 h => de_named_expand hs hu hp hf (.from_ i _ _ j (expandAll_get h1) (expand_from h2) (de_expand h))
  | _, _, .transparent i s f j h1 h2 h3 h4 h => by
    have ih := de_expand h
    refine de_named_expand hs hu hp hf (.transparent i _ (Field.mapTy _ f) j (expand_struct h1) (by simp [StructDecl.mapTy, h2, From.mapTy]) h3 ?_ ih)
    show innerFields (s.fields.map _) = _
    rw [innerFields_expand hp, h4]
    rfl
  | _, _, .struct i s j h1 h2 h3 h => by
    have ih := bodyDe_expand h
    refine de_named_expand hs hu hp hf (.struct i _ j (expand_struct h1) (by simp [StructDecl.mapTy, h2, From.mapTy]) h3 ?_)
    rw [deFields_expand]
    exact ih
  | _, _, .externalUnit i e v h1 h2 h3 h4 h5 =>
    de_named_expand hs hu hp hf (.externalUnit i _ (Variant.mapTy (expand a u) v) (expand_enum h1) (by simp [EnumDecl.mapTyZ, h2, From.mapTy]) h3
      (firstNamed_expand h4) (by rw [deStyle_expand]; exact h5))
  | _, _, .external i e v j h1 h2 h3 h4 h => by
    have ih := bodyDe_expand h
    rw [← deStyle_expand (a := a) (u := u)] at ih
    exact de_named_expand hs hu hp hf (.external i _ (Variant.mapTy (expand a u) v) j (expand_enum h1) (by simp [EnumDecl.mapTyZ, h2, From.mapTy]) h3
      (firstNamed_expand h4) ih)
  | _, _, .internalUnit i e v tag kvs h1 h2 h3 h4 h5 h6 h7 =>
    de_named_expand hs hu hp hf (.internalUnit i _ (Variant.mapTy (expand a u) v) tag kvs (expand_enum h1) (by simp [EnumDecl.mapTyZ, h2, From.mapTy]) h3
      (firstNamed_expand h4) (by rw [deStyle_expand]; exact h5) h6 h7)
  | _, _, .internal i e v tag kvs h1 h2 h3 h4 h5 h6 h => by
    have ih := bodyDe_expand h
    rw [← deStyle_expand (a := a) (u := u)] at ih
    exact de_named_expand hs hu hp hf (.internal i _ (Variant.mapTy (expand a u) v) tag kvs (expand_enum h1) (by simp [EnumDecl.mapTyZ, h2, From.mapTy]) h3
      (firstNamed_expand h4) (by rw [deStyle_expand]; exact h5) h6 ih)
  | _, _, .internalNewtype i e v tag f kvs h1 h2 h3 h4 h5 h6 h7 h8 h => by
    have ih := de_expand h
    exact de_named_expand hs hu hp hf (.internalNewtype i _ (Variant.mapTy (expand a u) v) tag (Field.mapTy _ f) kvs (expand_enum h1) (by simp [EnumDecl.mapTyZ, h2, From.mapTy]) h3
      (firstNamed_expand h4) (by rw [deStyle_expand]; exact h5) (by simp [Variant.mapTy, h6]) h7 h8 ih)
  | _, _, .adjacentUnit i e v tag content kvs h1 h2 h3 h4 h5 h6 h7 h8 h9 =>
    de_named_expand hs hu hp hf (.adjacentUnit i _ (Variant.mapTy (expand a u) v) tag content kvs (expand_enum h1) (by simp [EnumDecl.mapTyZ, h2, From.mapTy]) h3
      (firstNamed_expand h4) (by rw [deStyle_expand]; exact h5) h6 h7 h8 h9)
  | _, _, .adjacent i e v tag content kvs j h1 h2 h3 h4 h5 h6 h7 h8 h => by
    have ih := bodyDe_expand h
    rw [← deStyle_expand (a := a) (u := u)] at ih
    exact de_named_expand hs hu hp hf (.adjacent i _ (Variant.mapTy (expand a u) v) tag content kvs j (expand_enum h1) (by simp [EnumDecl.mapTyZ, h2, From.mapTy]) h3
      (firstNamed_expand h4) h5 h6 h7 h8 ih)
  | _, _, .untaggedUnit i e v h1 h2 h3 h4 h5 h6 =>
    de_named_expand hs hu hp hf (.untaggedUnit i _ (Variant.mapTy _ v) (expand_enum h1) (by simp [EnumDecl.mapTyZ, h2, From.mapTy]) h3
      (List.mem_map.2 ⟨v, h4, rfl⟩) h5 (by rw [deStyle_expand]; exact h6))
  | _, _, .untagged i e v j h1 h2 h3 h4 h5 h => by
    have ih := bodyDe_expand h
    rw [← deStyle_expand (a := a) (u := u)] at ih
    exact de_named_expand hs hu hp hf (.untagged i _ (Variant.mapTy _ v) j (expand_enum h1) (by simp [EnumDecl.mapTyZ, h2, From.mapTy]) h3
      (List.mem_map.2 ⟨v, h4, rfl⟩) h5 ih)

theorem des_expand : ∀ {ts : List Ty} {js : List Json}, All2 (De P) ts js → All2 (De (expandAll a u P)) (ts.map (expand a u)) js
  | _, _, .nil => .nil
  | _, _, .cons h1 h2 => .cons (de_expand h1) (des_expand h2)

theorem bodyDe_expand : ∀ {more : Option (List Str)} {st : Style} {fs : List Field} {j : Json}, DeBody P more st fs j →
    DeBody (expandAll a u P) more st (fs.map (Field.mapTy (expand a u))) j
  | _, _, _, _, .newtype more f j hk h => .newtype more _ j hk (de_expand h)
  | _, _, _, _, .tuple more fs js hl h => by
    have ih := des_expand h
    refine .tuple more _ js (by rw [List.length_map]; exact hl) ?_
    rw [keptFields_expand, List.map_map]
    rw [List.map_map] at ih
    exact ih
  | _, _, _, _, .short more fs gs hs' js hl hk hd h => by
    have ih := des_expand h
    refine .short more _ (gs.map (Field.mapTy (expand a u))) (hs'.map (Field.mapTy (expand a u))) js (by rw [List.length_map]; exact hl) ?_ ?_ ?_
    · rw [keptFields_expand, hk, List.map_append]
    · intro f hf
      obtain ⟨g, hg, rfl⟩ := List.mem_map.1 hf
      exact hd g hg
    · rw [List.map_map] at ih ⊢
      exact ih
  | _, _, _, _, .named more fs kvs hd hmore h hfl => by
    have ih := fun f hf hs hn => fieldDe_expand (h f hf hs hn)
    have ihf := fun f hf hs hn => de_expand (hfl f hf hs hn)
    refine .named more _ kvs hd ?_ ?_ ?_
    · rw [plainNames_expand]; exact hmore
    · intro f hf hs hn
      obtain ⟨g, hg, rfl⟩ := List.mem_map.1 hf
      exact ih g hg hs hn
    · intro f hf hs hn
      rw [plainNames_expand]
      obtain ⟨g, hg, rfl⟩ := List.mem_map.1 hf
      exact ihf g hg hs hn

theorem fieldDe_expand : ∀ {f : Field} {kvs : List (Str × Json)}, DeField P f kvs →
    DeField (expandAll a u P) (Field.mapTy (expand a u) f) kvs
  | _, _, .present f kvs j hf hj ha h => .present _ kvs j hf hj ha (de_expand h)
  | _, _, .alias f kvs a j hf ha hj hb h => .alias _ kvs a j hf ha hj hb (de_expand h)
  | _, _, .default f kvs hf hj h => .default _ kvs hf hj h
  | _, _, .missing f kvs hf hj h => .missing _ kvs hf hj (missing_expand hs hu hp h)
end

end

/-! ## Back -/

theorem expandStruct_back {i : Nat} {s' : StructDecl} (h : (expandAll a u P)[i]? = some (.struct s')) :
    ∃ s, P[i]? = some (.struct s) ∧ s' = StructDecl.mapTy (expand a u) s := by
  unfold expandAll at h
  rw [List.getElem?_map] at h
  obtain ⟨d, hd, e⟩ := Option.map_eq_some_iff.1 h
  cases d with
  | struct s => cases e; exact ⟨s, hd, rfl⟩
  | enum e' => cases e

theorem enum_back {i : Nat} {e' : EnumDecl} (h : (expandAll a u P)[i]? = some (.enum e')) :
    ∃ e, P[i]? = some (.enum e) ∧ e' = EnumDecl.mapTyZ (expand a u) e := by
  unfold expandAll at h
  rw [List.getElem?_map] at h
  obtain ⟨d, hd, e⟩ := Option.map_eq_some_iff.1 h
  cases d with
  | struct s => cases e
  | enum e' => cases e; exact ⟨e', hd, rfl⟩

theorem decl_back {i : Nat} {d' : Decl} (h : (expandAll a u P)[i]? = some d') : ∃ d, P[i]? = some d ∧ d' = Decl.mapTy (expand a u) d := by
  unfold expandAll at h
  rw [List.getElem?_map] at h
  obtain ⟨d, hd, e⟩ := Option.map_eq_some_iff.1 h
  exact ⟨d, hd, e.symm⟩

theorem from_back {d : Decl} {t' : Ty} (h : Decl.from_ (Decl.mapTy (expand a u) d) = .from_ t') :
    ∃ t, Decl.from_ d = .from_ t ∧ expand a u t = t' := by
  rw [expand_from rfl] at h
  cases hd : Decl.from_ d with
  | none => rw [hd] at h; cases h
  | from_ t => rw [hd] at h; cases h; exact ⟨t, rfl, rfl⟩
  | tryFrom t => rw [hd] at h; cases h

theorem fromNone_back {x : From} (h : From.mapTy (expand a u) x = .none) : x = .none := by
  cases x <;> first | rfl | cases h

theorem firstNamed_back {e : EnumDecl} {v' : Variant} (h : FirstNamed (EnumDecl.mapTyZ (expand a u) e) v') :
    ∃ v, v' = Variant.mapTy (expand a u) v ∧ FirstNamed e v := by
  unfold FirstNamed at h
  have h : ((e.variants.map (Variant.mapTy (expand a u))).filter (fun v => !v.skipDe)).find? (fun w => decide (w.name = v'.name)) = some v' := h
  rw [List.filter_map, List.find?_map] at h
  obtain ⟨v, hv, rfl⟩ := Option.map_eq_some_iff.1 h
  exact ⟨v, rfl, hv⟩

/-- The second type is built like the first one, from changed parts. -/
def Built (a : Nat) (u t : Ty) : Ty → Prop
  | .prim p => t = .prim p
  | .wrap w y => ∃ x, t = .wrap w x ∧ expand a u x = y
  | .option y => ∃ x, t = .option x ∧ expand a u x = y
  | .vec y => ∃ x, t = .vec x ∧ expand a u x = y
  | .array n y => ∃ x, t = .array n x ∧ expand a u x = y
  | .hashSet y => ∃ x, t = .hashSet x ∧ expand a u x = y
  | .btreeSet y => ∃ x, t = .btreeSet x ∧ expand a u x = y
  | .hashMap k y => ∃ l x, t = .hashMap l x ∧ expand a u l = k ∧ expand a u x = y
  | .btreeMap k y => ∃ l x, t = .btreeMap l x ∧ expand a u l = k ∧ expand a u x = y
  | .tuple ys => ∃ xs, t = .tuple xs ∧ xs.map (expand a u) = ys
  | .result y z => ∃ x w, t = .result x w ∧ expand a u x = y ∧ expand a u w = z
  | .named i => t = .named i

/-- Where a type is not the alias, it is built as before. -/
theorem expand_inv {t t' : Ty} (hne : t ≠ .named a) (h : expand a u t = t') : Built a u t t' := by
  subst h
  cases t with
  | named i => rw [expand_named_ne (fun e => hne (by rw [e]))]; exact rfl
  | tuple xs => rw [expand_tuple]; exact ⟨xs, rfl, rfl⟩
  | hashMap k v => rw [expand]; exact ⟨k, v, rfl, rfl, rfl⟩
  | btreeMap k v => rw [expand]; exact ⟨k, v, rfl, rfl, rfl⟩
  | result k v => rw [expand]; exact ⟨k, v, rfl, rfl, rfl⟩
  | _ => simp [expand, Built]

section
variable (hs : StandsFor P a u) (hu : NotIn a u) (hp : isPhantom u = false) (hf : ∀ d x, P[a]? = some d → Decl.from_ d ≠ .tryFrom x)
variable (hm : MissingOk P u → MissingOk P (.named a))
include hs hu hp hf hm

omit hs hf in
theorem missing_back {t' : Ty} (h : MissingOk (expandAll a u P) t') : ∀ t, expand a u t = t' → MissingOk P t := by
  have down : ∀ {t' : Ty}, (∀ t, t ≠ .named a → expand a u t = t' → MissingOk P t) → ∀ t, expand a u t = t' → MissingOk P t := by
    intro t' h t e
    by_cases ht : t = .named a
    · subst ht
      rw [expand_alias] at e
      subst e
      exact hm (h u (notIn_ne hu) (hu u))
    · exact h t ht e
  induction h with
  | option t' => exact down (fun t hne e => by obtain ⟨x, rfl, rfl⟩ := expand_inv hne e; exact .option x)
  | wrap w t' hw _ ih => exact down (fun t hne e => by obtain ⟨x, rfl, ex⟩ := expand_inv hne e; exact .wrap w x hw (ih x ex))
  | from_ i d' t' hd hfr _ ih =>
    refine down (fun t hne e => ?_)
    obtain rfl := expand_inv hne e
    obtain ⟨d, hd', rfl⟩ := decl_back hd
    obtain ⟨x, hx, ex⟩ := from_back hfr
    exact .from_ i d x hd' hx (ih x ex)
  | transparent i s' f' hd hfr ht hi _ ih =>
    refine down (fun t hne e => ?_)
    obtain rfl := expand_inv hne e
    obtain ⟨s, hd', rfl⟩ := expandStruct_back hd
    have hi : innerFields (s.fields.map (Field.mapTy (expand a u))) = [f'] := hi
    rw [innerFields_expand hp] at hi
    obtain ⟨f, hfs, rfl⟩ := List.map_eq_singleton_iff.1 hi
    exact .transparent i s f hd' (fromNone_back hfr) ht hfs (ih f.ty rfl)

omit hm hp in
theorem de_down {t' : Ty} {j : Json} (h : ∀ t, t ≠ .named a → expand a u t = t' → De P t j) : ∀ t, expand a u t = t' → De P t j := by
  intro t e
  by_cases ht : t = .named a
  · subst ht
    rw [expand_alias] at e
    subst e
    exact (Props.C90_serde P a u hs hf j).2 (h u (notIn_ne hu) (hu u))
  · exact h t ht e

mutual
theorem de_back (hk : ∀ k p, p = .string ∨ p = .smolStr → expand a u k = .prim p → k = .prim p) : ∀ {t' : Ty} {j : Json}, De (expandAll a u P) t' j → ∀ t, expand a u t = t' → De P t j
  | _, _, .string s => de_down hs hu hf (fun t hne e => by obtain rfl := expand_inv hne e; exact .string s)
  | _, _, .smolStr s => de_down hs hu hf (fun t hne e => by obtain rfl := expand_inv hne e; exact .smolStr s)
  | _, _, .char c => de_down hs hu hf (fun t hne e => by obtain rfl := expand_inv hne e; exact .char c)
  | _, _, .bool b => de_down hs hu hf (fun t hne e => by obtain rfl := expand_inv hne e; exact .bool b)
  | _, _, .unit => de_down hs hu hf (fun t hne e => by obtain rfl := expand_inv hne e; exact .unit)
  | _, _, .int p lo hi i h1 h2 h3 => de_down hs hu hf (fun t hne e => by obtain rfl := expand_inv hne e; exact .int p lo hi i h1 h2 h3)
  | _, _, .wide p lo hi i h1 h2 h3 h4 => de_down hs hu hf (fun t hne e => by obtain rfl := expand_inv hne e; exact .wide p lo hi i h1 h2 h3 h4)
  | _, _, .float p n h => de_down hs hu hf (fun t hne e => by obtain rfl := expand_inv hne e; exact .float p n h)
  | _, _, .ipv4 p x b c d h => de_down hs hu hf (fun t hne e => by obtain rfl := expand_inv hne e; exact .ipv4 p x b c d h)
  | _, _, .ipv6 p s h h' => de_down hs hu hf (fun t hne e => by obtain rfl := expand_inv hne e; exact .ipv6 p s h h')
  | _, _, .wrap w t' j hw h => de_down hs hu hf (fun t hne e => by
      obtain ⟨x, rfl, ex⟩ := expand_inv hne e; exact .wrap w x j hw (de_back hk h x ex))
  | _, _, .phantom t' => de_down hs hu hf (fun t hne e => by obtain ⟨x, rfl, ex⟩ := expand_inv hne e; exact .phantom x)
  | _, _, .none t' => de_down hs hu hf (fun t hne e => by obtain ⟨x, rfl, ex⟩ := expand_inv hne e; exact .none x)
  | _, _, .some t' j h => de_down hs hu hf (fun t hne e => by obtain ⟨x, rfl, ex⟩ := expand_inv hne e; exact .some x j (de_back hk h x ex))
  | _, _, .vec t' js h => de_down hs hu hf (fun t hne e => by
      obtain ⟨x, rfl, ex⟩ := expand_inv hne e; exact .vec x js (fun j hj => de_back hk (h j hj) x ex))
  | _, _, .array n t' js hl h => de_down hs hu hf (fun t hne e => by
      obtain ⟨x, rfl, ex⟩ := expand_inv hne e; exact .array n x js hl (fun j hj => de_back hk (h j hj) x ex))
  | _, _, .hashSet t' js h => de_down hs hu hf (fun t hne e => by
      obtain ⟨x, rfl, ex⟩ := expand_inv hne e; exact .hashSet x js (fun j hj => de_back hk (h j hj) x ex))
  | _, _, .btreeSet t' js h => de_down hs hu hf (fun t hne e => by
      obtain ⟨x, rfl, ex⟩ := expand_inv hne e; exact .btreeSet x js (fun j hj => de_back hk (h j hj) x ex))
  | _, _, .hashMap p t' kvs hp' h => de_down hs hu hf (fun t hne e => by
      obtain ⟨l, x, rfl, el, ex⟩ := expand_inv hne e
      have := hk l p hp' el
      subst this
      exact .hashMap p x kvs hp' (fun j hj => de_back hk (h j hj) x ex))
  | _, _, .btreeMap p t' kvs hp' h => de_down hs hu hf (fun t hne e => by
      obtain ⟨l, x, rfl, el, ex⟩ := expand_inv hne e
      have := hk l p hp' el
      subst this
      exact .btreeMap p x kvs hp' (fun j hj => de_back hk (h j hj) x ex))
  | _, _, .tuple ts js h => de_down hs hu hf (fun t hne e => by
      obtain ⟨xs, rfl, ex⟩ := expand_inv hne e; exact .tuple xs js (des_back hk h xs ex))
  | _, _, .ok t' e' j h => de_down hs hu hf (fun t hne e => by
      obtain ⟨x, w, rfl, ex, _⟩ := expand_inv hne e; exact .ok x w j (de_back hk h x ex))
  | _, _, .err t' e' j h => de_down hs hu hf (fun t hne e => by
      obtain ⟨x, w, rfl, _, ex⟩ := expand_inv hne e; exact .err x w j (de_back hk h w ex))
  | _, _, .from_ i d' t' j h1 h2 h => de_down hs hu hf (fun t hne e => by
      obtain rfl := expand_inv hne e
      have ih := de_back hk h
      obtain ⟨d, hd, rfl⟩ := decl_back h1
      obtain ⟨x, hx, ex⟩ := from_back h2
      exact .from_ i d x j hd hx (ih x ex))
  | _, _, .transparent i s' f' j h1 h2 h3 h4 h => de_down hs hu hf (fun t hne e => by
      obtain rfl := expand_inv hne e
      have ih := de_back hk h
      obtain ⟨s, hd, rfl⟩ := expandStruct_back h1
      have hi : innerFields (s.fields.map (Field.mapTy (expand a u))) = [f'] := h4
      rw [innerFields_expand hp] at hi
      obtain ⟨f, hfs, rfl⟩ := List.map_eq_singleton_iff.1 hi
      exact .transparent i s f j hd (fromNone_back h2) h3 hfs (ih f.ty rfl))
  | _, _, .struct i s' j h1 h2 h3 h => de_down hs hu hf (fun t hne e => by
      obtain rfl := expand_inv hne e
      have ih := bodyDe_back hk h
      obtain ⟨s, hd, rfl⟩ := expandStruct_back h1
      exact .struct i s j hd (fromNone_back h2) h3 (ih _ (deFields_expand s).symm))
  | _, _, .externalUnit i e' v' h1 h2 h3 h4 h5 => de_down hs hu hf (fun t hne e => by
      obtain rfl := expand_inv hne e
      obtain ⟨e, hd, rfl⟩ := enum_back h1
      obtain ⟨v, rfl, hv⟩ := firstNamed_back h4
      rw [deStyle_expand] at h5
      exact .externalUnit i e v hd (fromNone_back h2) h3 hv h5)
  | _, _, .external i e' v' j h1 h2 h3 h4 h => de_down hs hu hf (fun t hne e => by
      obtain rfl := expand_inv hne e
      have ih := bodyDe_back hk h
      obtain ⟨e, hd, rfl⟩ := enum_back h1
      obtain ⟨v, rfl, hv⟩ := firstNamed_back h4
      rw [deStyle_expand] at ih
      exact .external i e v j hd (fromNone_back h2) h3 hv (ih _ rfl))
  | _, _, .internalUnit i e' v' tag kvs h1 h2 h3 h4 h5 h6 h7 => de_down hs hu hf (fun t hne e => by
      obtain rfl := expand_inv hne e
      obtain ⟨e, hd, rfl⟩ := enum_back h1
      obtain ⟨v, rfl, hv⟩ := firstNamed_back h4
      rw [deStyle_expand] at h5
      exact .internalUnit i e v tag kvs hd (fromNone_back h2) h3 hv h5 h6 h7)
  | _, _, .internal i e' v' tag kvs h1 h2 h3 h4 h5 h6 h => de_down hs hu hf (fun t hne e => by
      obtain rfl := expand_inv hne e
      have ih := bodyDe_back hk h
      obtain ⟨e, hd, rfl⟩ := enum_back h1
      obtain ⟨v, rfl, hv⟩ := firstNamed_back h4
      rw [deStyle_expand] at h5 ih
      exact .internal i e v tag kvs hd (fromNone_back h2) h3 hv h5 h6 (ih _ rfl))
  | _, _, .internalNewtype i e' v' tag f' kvs h1 h2 h3 h4 h5 h6 h7 h8 h => de_down hs hu hf (fun t hne e => by
      obtain rfl := expand_inv hne e
      have ih := de_back hk h
      obtain ⟨e, hd, rfl⟩ := enum_back h1
      obtain ⟨v, rfl, hv⟩ := firstNamed_back h4
      rw [deStyle_expand] at h5
      have h6 : v.fields.map (Field.mapTy (expand a u)) = [f'] := h6
      obtain ⟨f, hfs, rfl⟩ := List.map_eq_singleton_iff.1 h6
      exact .internalNewtype i e v tag f kvs hd (fromNone_back h2) h3 hv h5 hfs h7 h8 (ih f.ty rfl))
  | _, _, .adjacentUnit i e' v' tag content kvs h1 h2 h3 h4 h5 h6 h7 h8 h9 => de_down hs hu hf (fun t hne e => by
      obtain rfl := expand_inv hne e
      obtain ⟨e, hd, rfl⟩ := enum_back h1
      obtain ⟨v, rfl, hv⟩ := firstNamed_back h4
      rw [deStyle_expand] at h5
      exact .adjacentUnit i e v tag content kvs hd (fromNone_back h2) h3 hv h5 h6 h7 h8 h9)
  | _, _, .adjacent i e' v' tag content kvs j h1 h2 h3 h4 h5 h6 h7 h8 h => de_down hs hu hf (fun t hne e => by
      obtain rfl := expand_inv hne e
      have ih := bodyDe_back hk h
      obtain ⟨e, hd, rfl⟩ := enum_back h1
      obtain ⟨v, rfl, hv⟩ := firstNamed_back h4
      rw [deStyle_expand] at ih
      exact .adjacent i e v tag content kvs j hd (fromNone_back h2) h3 hv h5 h6 h7 h8 (ih _ rfl))
  | _, _, .untaggedUnit i e' v' h1 h2 h3 h4 h5 h6 => de_down hs hu hf (fun t hne e => by
      obtain rfl := expand_inv hne e
      obtain ⟨e, hd, rfl⟩ := enum_back h1
      obtain ⟨v, hv, rfl⟩ := List.mem_map.1 h4
      rw [deStyle_expand] at h6
      exact .untaggedUnit i e v hd (fromNone_back h2) h3 hv h5 h6)
  | _, _, .untagged i e' v' j h1 h2 h3 h4 h5 h => de_down hs hu hf (fun t hne e => by
      obtain rfl := expand_inv hne e
      have ih := bodyDe_back hk h
      obtain ⟨e, hd, rfl⟩ := enum_back h1
      obtain ⟨v, hv, rfl⟩ := List.mem_map.1 h4
      rw [deStyle_expand] at ih
      exact .untagged i e v j hd (fromNone_back h2) h3 hv h5 (ih _ rfl))

theorem des_back (hk : ∀ k p, p = .string ∨ p = .smolStr → expand a u k = .prim p → k = .prim p) : ∀ {ts' : List Ty} {js : List Json}, All2 (De (expandAll a u P)) ts' js →
    ∀ ts, ts.map (expand a u) = ts' → All2 (De P) ts js
  | _, _, .nil => fun ts e => by rw [List.map_eq_nil_iff.1 e]; exact .nil
  | _, _, .cons h1 h2 => fun ts e => by
    have i1 := de_back hk h1
    have i2 := des_back hk h2
    cases ts with
    | nil => cases e
    | cons t ts =>
      rw [List.map_cons] at e
      injection e with e1 e2
      exact .cons (i1 t e1) (i2 ts e2)

theorem bodyDe_back (hk : ∀ k p, p = .string ∨ p = .smolStr → expand a u k = .prim p → k = .prim p) : ∀ {more : Option (List Str)} {st : Style} {fs' : List Field} {j : Json},
    DeBody (expandAll a u P) more st fs' j → ∀ fs, fs.map (Field.mapTy (expand a u)) = fs' → DeBody P more st fs j
  | _, _, _, _, .newtype more f' j hsk h => fun fs e => by
    have ih := de_back hk h
    obtain ⟨f, rfl, rfl⟩ := List.map_eq_singleton_iff.1 e
    exact .newtype more f j hsk (ih f.ty rfl)
  | _, _, _, _, .tuple more fs' js hl h => fun fs e => by
    have ih := des_back hk h
    subst e
    rw [List.length_map] at hl
    refine .tuple more fs js hl (ih _ ?_)
    rw [keptFields_expand, List.map_map, List.map_map]
    rfl
  | _, _, _, _, .short more fs' gs' hs' js hl hkf hd h => fun fs e => by
    have ih := des_back hk h
    subst e
    rw [List.length_map] at hl
    rw [keptFields_expand] at hkf
    obtain ⟨gs, hs2, e, rfl, rfl⟩ := List.map_eq_append_iff.1 hkf
    refine .short more fs gs hs2 js hl e (fun f hf => hd (Field.mapTy (expand a u) f) (List.mem_map.2 ⟨f, hf, rfl⟩)) (ih _ ?_)
    rw [List.map_map, List.map_map]
    rfl
  | _, _, _, _, .named more fs' kvs hd hmore h hfl => fun fs e => by
    have ih := fun f hf hs hn => fieldDe_back hk (h f hf hs hn)
    have ihf := fun f hf hs hn => de_back hk (hfl f hf hs hn)
    subst e
    rw [plainNames_expand] at hmore ihf
    refine .named more fs kvs hd hmore ?_ ?_
    · intro f hf hs hn
      exact ih _ (List.mem_map.2 ⟨f, hf, rfl⟩) hs hn f rfl
    · intro f hf hs hn
      exact ihf _ (List.mem_map.2 ⟨f, hf, rfl⟩) hs hn f.ty rfl

theorem fieldDe_back (hk : ∀ k p, p = .string ∨ p = .smolStr → expand a u k = .prim p → k = .prim p) : ∀ {f' : Field} {kvs : List (Str × Json)}, DeField (expandAll a u P) f' kvs →
    ∀ f, Field.mapTy (expand a u) f = f' → DeField P f kvs
  | _, _, .present f' kvs j hf' hj ha h => fun f e => by
    have ih := de_back hk h
    subst e
    exact .present f kvs j hf' hj ha (ih f.ty rfl)
  | _, _, .alias f' kvs b j hf' ha hj hb h => fun f e => by
    have ih := de_back hk h
    subst e
    exact .alias f kvs b j hf' ha hj hb (ih f.ty rfl)
  | _, _, .default f' kvs hf' hj h => fun f e => by
    subst e
    exact .default f kvs hf' hj h
  | _, _, .missing f' kvs hf' hj h => fun f e => by
    subst e
    exact .missing f kvs hf' hj (missing_back hu hp hm h f.ty rfl)
end

end

end Verif.Zod
