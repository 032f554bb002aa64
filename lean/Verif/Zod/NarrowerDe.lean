import Verif.Zod.EvolveDe

/-!
# serde without the new fields

What serde accepts with new fields it accepts without them, if it may ignore them.
-/

namespace Verif.Zod
open Verif Verif.Js Verif.Schema Verif.Spec Verif.SchemaSpec

/-- Variants: the second lacks fields of the first. -/
inductive LessVariant (deny : Bool) : Variant → Variant → Prop where
  | same (v : Variant) : LessVariant deny v v
  | fields (v : Variant) (fs : List Field) : deny = false → v.style = .named → (∀ f ∈ v.fields, f.flatten = false) → (∀ f ∈ v.fields, f ∈ fs) →
      LessVariant deny v { v with fields := fs }

/-- The declaration, and the one with new fields that are ignored without them. -/
inductive LessDecl : Decl → Decl → Prop where
  | same (d : Decl) : LessDecl d d
  | struct (s : StructDecl) (fs : List Field) : s.transparent = false → s.style = .named → s.deny = false →
      (∀ f ∈ s.fields, f.flatten = false) → (∀ f ∈ s.fields, f ∈ fs) → LessDecl (.struct s) (.struct { s with fields := fs })
  | enum (e : EnumDecl) (vs : List Variant) : All2 (LessVariant e.deny) e.variants vs →
      LessDecl (.enum e) (.enum { e with variants := vs })

theorem moreFields_sub {req : Bool} {K : Str → Prop} {l l' : List Field} (h : MoreFields req K l l') : ∀ f ∈ l, f ∈ l' := by
  induction h with
  | nil => intro f hf; exact hf
  | same f _ ih =>
    intro g hg
    rcases List.mem_cons.1 hg with rfl | hg
    · exact List.mem_cons_self
    · exact List.mem_cons_of_mem _ (ih g hg)
  | new f _ _ _ _ _ _ ih => intro g hg; exact List.mem_cons_of_mem _ (ih g hg)

theorem moreVariant_less {req deny : Bool} {K : Str → Prop} {v v' : Variant} (h : MoreVariant req K v v') (hd : deny = false)
    (hf : ∀ f ∈ v.fields, f.flatten = false) : LessVariant deny v v' := by
  cases h with
  | same => exact .same _
  | fields fs h1 h2 => exact .fields _ fs hd h1 hf (moreFields_sub h2)

theorem moreDecl_less {req : Bool} {K : Str → Prop} {d d' : Decl} (h : MoreDecl req K d d') (hd : Decl.deny d = false)
    (hf : ∀ f ∈ allFields d, f.flatten = false) : LessDecl d d' := by
  cases h with
  | same => exact .same _
  | struct s fs h1 h2 h3 => exact .struct s fs h1 h2 hd hf (moreFields_sub h3)
  | enum e vs hv =>
    exact .enum e vs (All2.imp_mem hv (fun v hm v' h => moreVariant_less h hd
      (fun f hf' => hf f (List.mem_flatMap.2 ⟨v, hm, hf'⟩))))

theorem lessVariant_name {deny : Bool} {v v' : Variant} (h : LessVariant deny v v') : v'.name = v.name := by cases h <;> rfl

theorem lessVariant_skip {deny : Bool} {v v' : Variant} (h : LessVariant deny v v') : v'.skipDe = v.skipDe := by cases h <;> rfl

theorem lessVariant_style {deny : Bool} {v v' : Variant} (h : LessVariant deny v v') : deStyle v' = deStyle v := by
  cases h with
  | same => rfl
  | fields fs _ h1 => unfold deStyle; simp only [h1]

/-- The fields of before and the new ones: the same, or named ones of which those of before are part. -/
def LessBody (more : Option (List Str)) (st : Style) (fs fs' : List Field) : Prop :=
  fs' = fs ∨ (st = .named ∧ more = none ∧ (∀ f ∈ fs, f.flatten = false) ∧ ∀ f ∈ fs, f ∈ fs')

theorem lessVariant_body {deny : Bool} {v v' : Variant} {names : List Str} (h : LessVariant deny v v') :
    LessBody (others deny names) (deStyle v) v.fields v'.fields := by
  cases h with
  | same => exact .inl rfl
  | fields fs hd h1 h2 h3 => exact .inr ⟨by unfold deStyle; simp only [h1], by rw [hd]; rfl, h2, h3⟩

theorem lessVariants_first {e e' : EnumDecl} {deny : Bool} (h : All2 (LessVariant deny) e.variants e'.variants) {v' : Variant} (hf : FirstNamed e' v') :
    ∃ v, FirstNamed e v ∧ LessVariant deny v v' := by
  have hk : All2 (LessVariant deny) (e.variants.filter (fun v => !v.skipDe)) (e'.variants.filter (fun v => !v.skipDe)) := by
    generalize e.variants = l at h
    generalize e'.variants = l' at h
    induction h with
    | nil => exact .nil
    | @cons v v' _ _ h _ ih =>
      rw [List.filter_cons, List.filter_cons, lessVariant_skip h]
      cases v.skipDe with
      | true => exact ih
      | false => exact .cons h ih
  unfold FirstNamed at hf ⊢
  generalize e.variants.filter (fun v => !v.skipDe) = l at hk
  generalize e'.variants.filter (fun v => !v.skipDe) = l' at hk hf
  suffices ∃ v, l.find? (fun w => decide (w.name = v'.name)) = some v ∧ LessVariant deny v v' by
    obtain ⟨v, h1, h2⟩ := this
    exact ⟨v, by rw [← lessVariant_name h2]; exact h1, h2⟩
  induction hk with
  | nil => cases hf
  | @cons w w' _ _ h _ ih =>
    rw [List.find?_cons] at hf ⊢
    rw [lessVariant_name h] at hf
    by_cases hn : w.name = v'.name
    · simp only [hn, decide_true, Option.some.injEq] at hf ⊢
      subst hf
      exact ⟨w, rfl, h⟩
    · simp only [hn, decide_false] at hf ⊢
      exact ih hf

theorem fieldTypes_dflt (s : StructDecl) : fieldTypes (StructDecl.deFields s) = fieldTypes s.fields := by
  unfold StructDecl.deFields fieldTypes
  cases s.dfltAll with
  | false => rfl
  | true =>
    simp only [if_true, List.filter_map, List.map_map]
    rfl

section
variable {P P' : Program}

theorem lessDecl_from {d d' : Decl} (h : LessDecl d d') : Spec.Decl.from_ d' = Spec.Decl.from_ d := by cases h <;> rfl

theorem lessDecl_struct {d : Decl} {s' : StructDecl} (h : LessDecl d (.struct s')) : ∃ s, d = .struct s ∧ s'.from_ = s.from_ ∧
    s'.transparent = s.transparent ∧ s'.deny = s.deny ∧ s'.style = s.style ∧ (s'.transparent = true → s' = s) ∧
    LessBody (others s.deny []) s.style (StructDecl.deFields s) (StructDecl.deFields s') := by
  cases h with
  | same => exact ⟨s', rfl, rfl, rfl, rfl, rfl, fun _ => rfl, .inl rfl⟩
  | struct s fs h1 h2 h3 h4 h5 =>
    refine ⟨s, rfl, rfl, rfl, rfl, rfl, (fun h => by rw [h1] at h; cases h), .inr ⟨h2, by rw [h3]; rfl, ?_⟩⟩
    unfold StructDecl.deFields
    cases s.dfltAll with
    | false => exact ⟨h4, h5⟩
    | true =>
      constructor
      · intro f hf
        obtain ⟨g, hg, rfl⟩ := List.mem_map.1 hf
        exact h4 g hg
      · intro f hf
        obtain ⟨g, hg, rfl⟩ := List.mem_map.1 hf
        exact List.mem_map.2 ⟨g, h5 g hg, rfl⟩

theorem lessDecl_enum {d : Decl} {e' : EnumDecl} (h : LessDecl d (.enum e')) : ∃ e, d = .enum e ∧ e'.from_ = e.from_ ∧
    e'.tag = e.tag ∧ e'.deny = e.deny ∧ (∀ v', FirstNamed e' v' → ∃ v, FirstNamed e v ∧ LessVariant e.deny v v') ∧
    ∀ v' ∈ e'.variants, ∃ v ∈ e.variants, LessVariant e.deny v v' := by
  cases h with
  | same => exact ⟨e', rfl, rfl, rfl, rfl, fun v h => ⟨v, h, .same v⟩, fun v h => ⟨v, h, .same v⟩⟩
  | enum e vs hv => exact ⟨e, rfl, rfl, rfl, rfl, fun v' h => lessVariants_first hv h, fun v' h => All2.mem_right hv h⟩

theorem first_mem {e : EnumDecl} {v : Variant} (h : FirstNamed e v) : v ∈ e.variants ∧ v.skipDe = false := by
  have hk := List.mem_filter.1 (List.mem_of_find?_eq_some h)
  exact ⟨hk.1, by simpa using hk.2⟩

/-- The fields of a variant use declared types. -/
theorem scope_variant (hsc : ∀ d ∈ P, ∀ t ∈ declTypes d, InScope P t) {i : Nat} {e : EnumDecl} (hd : P[i]? = some (.enum e)) {v : Variant}
    (hv : v ∈ e.variants) (hs : v.skipDe = false) : ∀ t ∈ fieldTypes v.fields, InScope P t := by
  intro t ht
  refine hsc _ (List.mem_of_getElem? hd) t ?_
  refine List.mem_append.2 (.inl (List.mem_flatten.2 ⟨_, List.mem_map.2 ⟨v, List.mem_filter.2 ⟨hv, by simpa using hs⟩, rfl⟩, ht⟩))

theorem scope_struct (hsc : ∀ d ∈ P, ∀ t ∈ declTypes d, InScope P t) {i : Nat} {s : StructDecl} (hd : P[i]? = some (.struct s)) :
    ∀ t ∈ fieldTypes s.fields, InScope P t := by
  intro t ht
  exact hsc _ (List.mem_of_getElem? hd) t (List.mem_append.2 (.inl ht))

theorem scope_from (hsc : ∀ d ∈ P, ∀ t ∈ declTypes d, InScope P t) {i : Nat} {d : Decl} (hd : P[i]? = some d) {t : Ty}
    (ht : Spec.Decl.from_ d = .from_ t) : InScope P t := by
  refine hsc _ (List.mem_of_getElem? hd) t ?_
  cases d with
  | struct s =>
    refine List.mem_append.2 (.inr ?_)
    rw [show s.from_ = .from_ t from ht]
    simp [From.ty?]
  | enum e =>
    refine List.mem_append.2 (.inr ?_)
    rw [show e.from_ = .from_ t from ht]
    simp [From.ty?]

theorem inner_type {fs : List Field} {f : Field} (h : innerFields fs = [f]) : f.ty ∈ fieldTypes fs := by
  have : f ∈ innerFields fs := by rw [h]; exact List.mem_cons_self
  exact List.mem_map.2 ⟨f, (List.mem_filter.1 this).1, rfl⟩

theorem field_type {fs : List Field} {f : Field} (hf : f ∈ fs) (hs : f.skipDe = false) : f.ty ∈ fieldTypes fs :=
  List.mem_map.2 ⟨f, List.mem_filter.2 ⟨hf, by simpa using hs⟩, rfl⟩

/-- The components of a built-in type are declared if it is. -/
theorem scope_parts {t : Ty} (h : InScope P t) : ∀ u, Part [] t u → InScope P u := by
  intro u hu
  cases hu with
  | named i d t hd => simp at hd
  | wrap => cases h; assumption
  | option => cases h; assumption
  | vec => cases h; assumption
  | array => cases h; assumption
  | hashSet => cases h; assumption
  | btreeSet => cases h; assumption
  | hashMapK => cases h; assumption
  | hashMapV => cases h; assumption
  | btreeMapK => cases h; assumption
  | btreeMapV => cases h; assumption
  | tuple ts t hm => cases h with | tuple h => exact h _ hm
  | resultT => cases h; assumption
  | resultE => cases h; assumption

/-- Programs: the second lacks fields of the first. -/
def LessProgram (P P' : Program) : Prop := ∀ (i : Nat) (d : Decl), P[i]? = some d → ∃ d', P'[i]? = some d' ∧ LessDecl d d'

theorem less_get (hP : LessProgram P P') {i : Nat} (hi : InScope P (.named i)) {d' : Decl} (h : P'[i]? = some d') :
    ∃ d, P[i]? = some d ∧ LessDecl d d' := by
  cases hi with
  | named hi =>
    obtain ⟨x, h1, h2⟩ := hP i P[i] (List.getElem?_eq_getElem hi)
    rw [h] at h1
    cases h1
    exact ⟨_, List.getElem?_eq_getElem hi, h2⟩

theorem missing_less (hP : LessProgram P P') (hsc : ∀ d ∈ P, ∀ t ∈ declTypes d, InScope P t) {t : Ty} (h : MissingOk P' t) :
    InScope P t → MissingOk P t := by
  induction h with
  | option t => intro _; exact .option t
  | wrap w t hw _ ih => intro hi; cases hi with | wrap _ hi => exact .wrap w t hw (ih hi)
  | from_ i d' t hd hf _ ih =>
    intro hi
    obtain ⟨d, hd, hs⟩ := less_get hP hi hd
    rw [lessDecl_from hs] at hf
    exact .from_ i d t hd hf (ih (scope_from hsc hd hf))
  | transparent i s f hd hf ht hin _ ih =>
    intro hi
    obtain ⟨d, hd, hs⟩ := less_get hP hi hd
    obtain ⟨s', rfl, _, _, _, _, e, _⟩ := lessDecl_struct hs
    have := e ht
    subst this
    exact .transparent i s f hd hf ht hin (ih (scope_struct hsc hd _ (inner_type hin)))

variable (hP : LessProgram P P') (hsc : ∀ d ∈ P, ∀ t ∈ declTypes d, InScope P t)
include hP hsc

mutual
theorem de_narrow : ∀ {t : Ty} {j : Json}, De P' t j → InScope P t → De P t j
  | _, _, .string s, _ => .string s
  | _, _, .smolStr s, _ => .smolStr s
  | _, _, .char c, _ => .char c
  | _, _, .bool b, _ => .bool b
  | _, _, .unit, _ => .unit
  | _, _, .int p lo hi i h1 h2 h3, _ => .int p lo hi i h1 h2 h3
  | _, _, .wide p lo hi i h1 h2 h3 h4, _ => .wide p lo hi i h1 h2 h3 h4
  | _, _, .float p n h, _ => .float p n h
  | _, _, .ipv4 p a b c d h, _ => .ipv4 p a b c d h
  | _, _, .ipv6 p s h hs, _ => .ipv6 p s h hs
  | _, _, .wrap w t j hw h, hi => .wrap w t _ hw (de_narrow h (scope_parts hi t (.wrap w t)))
  | _, _, .phantom t, _ => .phantom t
  | _, _, .none t, _ => .none t
  | _, _, .some t j h, hi => .some t _ (de_narrow h (scope_parts hi t (.option t)))
  | _, _, .vec t js h, hi => .vec t js (fun j hm => de_narrow (h j hm) (scope_parts hi t (.vec t)))
  | _, _, .array n t js hl h, hi => .array n t js hl (fun j hm => de_narrow (h j hm) (scope_parts hi t (.array n t)))
  | _, _, .hashSet t js h, hi => .hashSet t js (fun j hm => de_narrow (h j hm) (scope_parts hi t (.hashSet t)))
  | _, _, .btreeSet t js h, hi => .btreeSet t js (fun j hm => de_narrow (h j hm) (scope_parts hi t (.btreeSet t)))
  | _, _, .hashMap p t kvs hp h, hi => .hashMap p t kvs hp (fun kv hm => de_narrow (h kv hm) (scope_parts hi t (.hashMapV _ t)))
  | _, _, .btreeMap p t kvs hp h, hi => .btreeMap p t kvs hp (fun kv hm => de_narrow (h kv hm) (scope_parts hi t (.btreeMapV _ t)))
  | _, _, .tuple ts js h, hi => .tuple ts js (des_narrow h (fun t ht => scope_parts hi t (.tuple ts t ht)))
  | _, _, .ok t e j h, hi => .ok t e j (de_narrow h (scope_parts hi t (.resultT t e)))
  | _, _, .err t e j h, hi => .err t e j (de_narrow h (scope_parts hi e (.resultE t e)))
  | _, _, .from_ i d' t j h1 h2 h, hi => by
    have ih := de_narrow h
    obtain ⟨d, hd, hs⟩ := less_get hP hi h1
    rw [lessDecl_from hs] at h2
    exact .from_ i d t j hd h2 (ih (scope_from hsc hd h2))
  | _, _, .transparent i s f j h1 h2 h3 h4 h, hi => by
    have ih := de_narrow h
    obtain ⟨d, hd, hs⟩ := less_get hP hi h1
    obtain ⟨s', rfl, _, _, _, _, e, _⟩ := lessDecl_struct hs
    have := e h3
    subst this
    exact .transparent i s f j hd h2 h3 h4 (ih (scope_struct hsc hd _ (inner_type h4)))
  | _, _, .struct i s' j h1 h2 h3 h, hi => by
    have ih := fun {fs} => body_narrow h (fs := fs)
    obtain ⟨d, hd, hs⟩ := less_get hP hi h1
    obtain ⟨s, rfl, e1, e2, e3, e4, _, hb⟩ := lessDecl_struct hs
    refine .struct i s j hd (by rw [← e1]; exact h2) (by rw [← e2]; exact h3) ?_
    rw [e3, e4] at ih
    exact ih (by rw [fieldTypes_dflt]; exact scope_struct hsc hd) hb
  | _, _, .externalUnit i e' v' h1 h2 h3 h4 h5, hi => by
    obtain ⟨d, hd, hs⟩ := less_get hP hi h1
    obtain ⟨e, rfl, e1, e2, e3, hv, hu⟩ := lessDecl_enum hs
    obtain ⟨v, hf, hvv⟩ := hv _ h4
    rw [lessVariant_name hvv]
    exact .externalUnit i e v hd (by rw [← e1]; exact h2) (by rw [← e2]; exact h3) hf (by rw [← lessVariant_style hvv]; exact h5)
  | _, _, .external i e' v' j h1 h2 h3 h4 h, hi => by
    have ih := fun {fs} => body_narrow h (fs := fs)
    obtain ⟨d, hd, hs⟩ := less_get hP hi h1
    obtain ⟨e, rfl, e1, e2, e3, hv, hu⟩ := lessDecl_enum hs
    obtain ⟨v, hf, hvv⟩ := hv _ h4
    rw [lessVariant_name hvv]
    refine .external i e v j hd (by rw [← e1]; exact h2) (by rw [← e2]; exact h3) hf ?_
    rw [e3, lessVariant_style hvv] at ih
    exact ih (scope_variant hsc hd (first_mem hf).1 (first_mem hf).2) (lessVariant_body hvv)
  | _, _, .internalUnit i e' v' tag kvs h1 h2 h3 h4 h5 h6 h7, hi => by
    obtain ⟨d, hd, hs⟩ := less_get hP hi h1
    obtain ⟨e, rfl, e1, e2, e3, hv, hu⟩ := lessDecl_enum hs
    obtain ⟨v, hf, hvv⟩ := hv _ h4
    exact .internalUnit i e v tag kvs hd (by rw [← e1]; exact h2) (by rw [← e2]; exact h3) hf (by rw [← lessVariant_style hvv]; exact h5)
      h6 (by rw [← lessVariant_name hvv]; exact h7)
  | _, _, .internal i e' v' tag kvs h1 h2 h3 h4 h5 h6 h, hi => by
    have ih := fun {fs} => body_narrow h (fs := fs)
    obtain ⟨d, hd, hs⟩ := less_get hP hi h1
    obtain ⟨e, rfl, e1, e2, e3, hv, hu⟩ := lessDecl_enum hs
    obtain ⟨v, hf, hvv⟩ := hv _ h4
    refine .internal i e v tag kvs hd (by rw [← e1]; exact h2) (by rw [← e2]; exact h3) hf (by rw [← lessVariant_style hvv]; exact h5)
      (by rw [← lessVariant_name hvv]; exact h6) ?_
    rw [e3, lessVariant_style hvv] at ih
    exact ih (scope_variant hsc hd (first_mem hf).1 (first_mem hf).2) (lessVariant_body hvv)
  | _, _, .internalNewtype i e' v' tag f kvs h1 h2 h3 h4 h5 h6 h7 h8 h, hi => by
    have ih := de_narrow h
    obtain ⟨d, hd, hs⟩ := less_get hP hi h1
    obtain ⟨e, rfl, e1, e2, e3, hv, hu⟩ := lessDecl_enum hs
    obtain ⟨v, hf, hvv⟩ := hv _ h4
    have h5' := h5
    rw [lessVariant_style hvv] at h5'
    have he : v.fields = [f] := by
      rcases lessVariant_body (names := []) hvv with e | ⟨e, _⟩
      · rw [← e]; exact h6
      · rw [h5'] at e; cases e
    have hk : f.skipDe = false := by
      unfold deStyle at h5'
      rw [he] at h5'
      cases hf : f.skipDe with
      | false => rfl
      | true => cases hst : v.style <;> simp [hst, hf] at h5'
    exact .internalNewtype i e v tag f kvs hd (by rw [← e1]; exact h2) (by rw [← e2]; exact h3) hf h5' he h7
      (by rw [← lessVariant_name hvv]; exact h8)
      (ih (scope_variant hsc hd (first_mem hf).1 (first_mem hf).2 _ (field_type (by rw [he]; exact List.mem_cons_self) hk)))
  | _, _, .adjacentUnit i e' v' tag content kvs h1 h2 h3 h4 h5 h6 h7 h8 h9, hi => by
    obtain ⟨d, hd, hs⟩ := less_get hP hi h1
    obtain ⟨e, rfl, e1, e2, e3, hv, hu⟩ := lessDecl_enum hs
    obtain ⟨v, hf, hvv⟩ := hv _ h4
    exact .adjacentUnit i e v tag content kvs hd (by rw [← e1]; exact h2) (by rw [← e2]; exact h3) hf
      (by rw [← lessVariant_style hvv]; exact h5) h6 (by rw [← lessVariant_name hvv]; exact h7) h8 (by rw [← e3]; exact h9)
  | _, _, .adjacent i e' v' tag content kvs j h1 h2 h3 h4 h5 h6 h7 h8 h, hi => by
    have ih := fun {fs} => body_narrow h (fs := fs)
    obtain ⟨d, hd, hs⟩ := less_get hP hi h1
    obtain ⟨e, rfl, e1, e2, e3, hv, hu⟩ := lessDecl_enum hs
    obtain ⟨v, hf, hvv⟩ := hv _ h4
    refine .adjacent i e v tag content kvs j hd (by rw [← e1]; exact h2) (by rw [← e2]; exact h3) hf h5
      (by rw [← lessVariant_name hvv]; exact h6) h7 (by rw [← e3]; exact h8) ?_
    rw [e3, lessVariant_style hvv] at ih
    exact ih (scope_variant hsc hd (first_mem hf).1 (first_mem hf).2) (lessVariant_body hvv)
  | _, _, .untaggedUnit i e' v' h1 h2 h3 h4 h5 h6, hi => by
    obtain ⟨d, hd, hs⟩ := less_get hP hi h1
    obtain ⟨e, rfl, e1, e2, e3, hv, hu⟩ := lessDecl_enum hs
    obtain ⟨v, hm, hvv⟩ := hu _ h4
    exact .untaggedUnit i e v hd (by rw [← e1]; exact h2) (by rw [← e2]; exact h3) hm (by rw [← lessVariant_skip hvv]; exact h5)
      (by rw [← lessVariant_style hvv]; exact h6)
  | _, _, .untagged i e' v' j h1 h2 h3 h4 h5 h, hi => by
    have ih := fun {fs} => body_narrow h (fs := fs)
    obtain ⟨d, hd, hs⟩ := less_get hP hi h1
    obtain ⟨e, rfl, e1, e2, e3, hv, hu⟩ := lessDecl_enum hs
    obtain ⟨v, hm, hvv⟩ := hu _ h4
    rw [lessVariant_skip hvv] at h5
    refine .untagged i e v j hd (by rw [← e1]; exact h2) (by rw [← e2]; exact h3) hm h5 ?_
    rw [e3, lessVariant_style hvv] at ih
    exact ih (scope_variant hsc hd hm h5) (lessVariant_body hvv)

theorem des_narrow : ∀ {ts : List Ty} {js : List Json}, All2 (De P') ts js → (∀ t ∈ ts, InScope P t) → All2 (De P) ts js
  | _, _, .nil, _ => .nil
  | _, _, .cons h1 h2, hi => .cons (de_narrow h1 (hi _ List.mem_cons_self)) (des_narrow h2 (fun t hm => hi t (List.mem_cons_of_mem _ hm)))

theorem body_narrow : ∀ {more : Option (List Str)} {st : Style} {fs fs' : List Field} {j : Json},
    DeBody P' more st fs' j → (∀ t ∈ fieldTypes fs, InScope P t) → LessBody more st fs fs' → DeBody P more st fs j
  | _, _, _, _, _, .newtype more f j hk h, hi, hb => by
    have ih := de_narrow h
    rcases hb with rfl | ⟨e, _⟩
    · exact .newtype more f j hk (ih (hi _ (field_type List.mem_cons_self hk)))
    · cases e
  | _, _, _, _, _, .tuple more fs js hl h, hi, hb => by
    have ih := des_narrow h
    rcases hb with rfl | ⟨e, _⟩
    · exact .tuple more _ js hl (ih hi)
    · cases e
  | _, _, _, _, _, .short more fs gs hs js hl hk hd h, hi, hb => by
    have ih := des_narrow h
    rcases hb with rfl | ⟨e, _⟩
    · refine .short more _ gs hs js hl hk hd (ih (fun t ht => hi t ?_))
      unfold fieldTypes
      rw [show fs.filter (fun f => !f.skipDe) = gs ++ hs from hk, List.map_append]
      exact List.mem_append.2 (.inl ht)
    · cases e
  | _, _, fs, _, _, .named more fs' kvs hd hmore h hfl, hi, hb => by
    have ih1 := fun f hf hs hn => field_narrow (h f hf hs hn)
    have ih2 := fun f hf hs hn => de_narrow (hfl f hf hs hn)
    rcases hb with rfl | ⟨_, rfl, hnf, hsub⟩
    · exact .named more _ kvs hd hmore (fun f hf hs hn => ih1 f hf hs hn (hi _ (field_type hf hs)))
        (fun f hf hs hn => ih2 f hf hs hn (hi _ (field_type hf hs)))
    · refine .named none fs kvs hd (fun names hm => by cases hm) (fun f hf hs hn => ih1 f (hsub f hf) hs hn (hi _ (field_type hf hs))) ?_
      intro f hf hs hn
      rw [hnf f hf] at hn
      cases hn

theorem field_narrow : ∀ {f : Field} {kvs : List (Str × Json)}, DeField P' f kvs → InScope P f.ty → DeField P f kvs
  | _, _, .present f kvs j hf hj ha h, hi => .present f kvs j hf hj ha (de_narrow h hi)
  | _, _, .alias f kvs a j hf ha hj hb h, hi => .alias f kvs a j hf ha hj hb (de_narrow h hi)
  | _, _, .default f kvs hf hj h, _ => .default f kvs hf hj h
  | _, _, .missing f kvs hf hj h, hi => .missing f kvs hf hj (missing_less hP hsc h hi)
end
end

/-- serde accepts without the new fields what it accepts with them. -/
theorem de_less (hP : LessProgram P P') (hsc : ∀ d ∈ P, ∀ t ∈ declTypes d, InScope P t) {t : Ty} {j : Json} (ht : InScope P t)
    (h : De P' t j) : De P t j := de_narrow hP hsc h ht

end Verif.Zod
