import Verif.Spec.Serde
import Verif.Zod.Evolve

/-!
# New fields and what serde accepts

Documents without members of the names of new fields are accepted by the program with these fields if and only if they are accepted
without them. The relation of the two programs is made symmetric first, so that one direction is enough.
-/

namespace Verif.Zod
open Verif Verif.Js Verif.Schema Verif.Spec Verif.SchemaSpec

variable {K : Str → Prop}

/-- A field with a default and with names in `K`. -/
def Extra (K : Str → Prop) (f : Field) : Prop :=
  f.dflt = true ∧ f.flatten = false ∧ f.skipDe = false ∧ ∀ a ∈ f.name :: f.aliases, K a

/-- Lists with the same fields, except for such. -/
def SameFields (K : Str → Prop) (l l' : List Field) : Prop :=
  (∀ f ∈ l, f ∈ l' ∨ Extra K f) ∧ ∀ f ∈ l', f ∈ l ∨ Extra K f

/-- Variants that differ in fields whose names are in `K`. -/
inductive SameVariant (K : Str → Prop) : Variant → Variant → Prop where
  | same (v : Variant) : SameVariant K v v
  | fields (v v' : Variant) : v.name = v'.name → v.skipDe = v'.skipDe → v.style = .named → v'.style = .named →
      SameFields K v.fields v'.fields → SameVariant K v v'

/-- Declarations that differ in fields whose names are in `K`. -/
inductive SameDecl (K : Str → Prop) : Decl → Decl → Prop where
  | same (d : Decl) : SameDecl K d d
  | struct (s s' : StructDecl) : s.transparent = false → s'.transparent = false → s.style = .named → s'.style = .named →
      s.from_ = s'.from_ → s.deny = s'.deny → s.dfltAll = s'.dfltAll → SameFields K s.fields s'.fields →
      SameDecl K (.struct s) (.struct s')
  | enum (e e' : EnumDecl) : e.tag = e'.tag → e.from_ = e'.from_ → e.deny = e'.deny → All2 (SameVariant K) e.variants e'.variants →
      SameDecl K (.enum e) (.enum e')

theorem SameFields.symm {l l' : List Field} (h : SameFields K l l') : SameFields K l' l := ⟨h.2, h.1⟩

theorem SameVariant.symm {v v' : Variant} (h : SameVariant K v v') : SameVariant K v' v := by
  cases h with
  | same => exact .same _
  | fields _ h1 h2 h3 h4 h5 => exact .fields _ _ h1.symm h2.symm h4 h3 h5.symm

theorem all2_symm {α : Type} {R : α → α → Prop} (hR : ∀ a b, R a b → R b a) {l l' : List α} (h : All2 R l l') : All2 R l' l := by
  induction h with
  | nil => exact .nil
  | cons h _ ih => exact .cons (hR _ _ h) ih

theorem SameDecl.symm {d d' : Decl} (h : SameDecl K d d') : SameDecl K d' d := by
  cases h with
  | same => exact .same _
  | struct s s' h1 h2 h3 h4 h5 h6 h7 h8 => exact .struct _ _ h2 h1 h4 h3 h5.symm h6.symm h7.symm h8.symm
  | enum e e' h1 h2 h3 h4 => exact .enum _ _ h1.symm h2.symm h3.symm (all2_symm (fun _ _ h => SameVariant.symm h) h4)

theorem moreFields_same {l l' : List Field} (h : MoreFields false K l l') : SameFields K l l' := by
  induction h with
  | nil => exact ⟨fun f hf => .inl hf, fun f hf => .inl hf⟩
  | same f _ ih =>
    constructor
    · intro g hg
      rcases List.mem_cons.1 hg with rfl | hg
      · exact .inl List.mem_cons_self
      · exact (ih.1 g hg).imp (List.mem_cons_of_mem _) id
    · intro g hg
      rcases List.mem_cons.1 hg with rfl | hg
      · exact .inl List.mem_cons_self
      · exact (ih.2 g hg).imp (List.mem_cons_of_mem _) id
  | new f _ hd hf hs hk _ ih =>
    constructor
    · intro g hg
      exact (ih.1 g hg).imp (List.mem_cons_of_mem _) id
    · intro g hg
      rcases List.mem_cons.1 hg with rfl | hg
      · exact .inr ⟨hd.resolve_left nofun, hf, hs, hk⟩
      · exact ih.2 g hg

theorem moreVariant_same {v v' : Variant} (h : MoreVariant false K v v') : SameVariant K v v' := by
  cases h with
  | same => exact .same _
  | fields fs hs hf => exact .fields _ _ rfl rfl hs hs (moreFields_same hf)

theorem moreDecl_same {d d' : Decl} (h : MoreDecl false K d d') : SameDecl K d d' := by
  cases h with
  | same => exact .same _
  | struct s fs ht hs hf => exact .struct _ _ ht ht hs hs rfl rfl rfl (moreFields_same hf)
  | enum e vs hv => exact .enum _ _ rfl rfl rfl (All2.imp_mem hv (fun _ _ _ h => moreVariant_same h))

/-! ## Documents -/

/-- The document has no member with a name in `K`. -/
abbrev LacksJ (K : Str → Prop) (j : Json) : Prop := Lacks K (fromJson j)

theorem lacks_arr {js : List Json} (h : LacksJ K (.arr js)) : ∀ j ∈ js, LacksJ K j := by
  intro j hj
  rw [LacksJ, fromJson_arr] at h
  exact (lacks_inherited K).arr _ h _ (List.mem_map.2 ⟨j, hj, rfl⟩)

theorem lacks_keys {kvs : List (Str × Json)} (h : LacksJ K (.obj kvs)) : ∀ p ∈ kvs, ¬ K p.1 := by
  intro p hp
  rw [LacksJ, fromJson_obj] at h
  cases h with
  | obj _ h _ => exact h _ (List.mem_map.2 ⟨p, hp, rfl⟩)

theorem lacks_vals {kvs : List (Str × Json)} (h : LacksJ K (.obj kvs)) : ∀ p ∈ kvs, LacksJ K p.2 := by
  intro p hp
  rw [LacksJ, fromJson_obj] at h
  cases h with
  | obj _ _ h => exact h _ (List.mem_map.2 ⟨p, hp, rfl⟩)

theorem lacks_jget {kvs : List (Str × Json)} (h : LacksJ K (.obj kvs)) {k : Str} {j : Json} (hj : jget kvs k = some j) : LacksJ K j := by
  unfold jget at hj
  obtain ⟨p, hp, rfl⟩ := Option.map_eq_some_iff.1 hj
  exact lacks_vals h p (List.mem_of_find?_eq_some hp)

theorem lacks_jget_none {kvs : List (Str × Json)} (h : LacksJ K (.obj kvs)) {k : Str} (hk : K k) : jget kvs k = none := by
  cases hj : jget kvs k with
  | none => rfl
  | some j =>
    unfold jget at hj
    obtain ⟨p, hp, _⟩ := Option.map_eq_some_iff.1 hj
    have e := List.find?_some hp
    simp only [decide_eq_true_eq] at e
    subst e
    exact absurd hk (lacks_keys h p (List.mem_of_find?_eq_some hp))

theorem lacks_filter {kvs : List (Str × Json)} (h : LacksJ K (.obj kvs)) (q : Str × Json → Bool) : LacksJ K (.obj (kvs.filter q)) := by
  rw [LacksJ, fromJson_obj]
  refine .obj _ ?_ ?_
  · intro p hp
    obtain ⟨x, hx, rfl⟩ := List.mem_map.1 hp
    exact lacks_keys h x (List.mem_filter.1 hx).1
  · intro p hp
    obtain ⟨x, hx, rfl⟩ := List.mem_map.1 hp
    exact lacks_vals h x (List.mem_filter.1 hx).1

theorem plainNames_mem {fs : List Field} {k : Str} : k ∈ plainNames fs ↔
    ∃ f ∈ fs, f.skipDe = false ∧ f.flatten = false ∧ k ∈ f.name :: f.aliases := by
  unfold plainNames keptFields
  simp only [List.mem_flatMap, List.mem_filter, Bool.not_eq_true', and_assoc]

theorem sameFields_plain {fs fs' : List Field} (h : SameFields K fs fs') {k : Str} (hk : k ∈ plainNames fs) : k ∈ plainNames fs' ∨ K k := by
  rw [plainNames_mem] at hk ⊢
  obtain ⟨f, hf, h1, h2, h3⟩ := hk
  rcases h.1 f hf with hf' | hx
  · exact .inl ⟨f, hf', h1, h2, h3⟩
  · exact .inr (hx.2.2.2 k h3)

theorem sameFields_filter {fs fs' : List Field} (h : SameFields K fs fs') {kvs : List (Str × Json)} (hj : LacksJ K (.obj kvs)) :
    kvs.filter (fun p => p.1 ∉ plainNames fs) = kvs.filter (fun p => p.1 ∉ plainNames fs') := by
  refine List.filter_congr (fun p hp => ?_)
  have hk := lacks_keys hj p hp
  have : p.1 ∈ plainNames fs ↔ p.1 ∈ plainNames fs' :=
    ⟨fun hm => (sameFields_plain h hm).resolve_right hk, fun hm => (sameFields_plain h.symm hm).resolve_right hk⟩
  simp [this]

theorem sameFields_dflt {fs fs' : List Field} (h : SameFields K fs fs') :
    SameFields K (fs.map (fun f => { f with dflt := true })) (fs'.map (fun f => { f with dflt := true })) := by
  have one : ∀ {l l' : List Field}, (∀ f ∈ l, f ∈ l' ∨ Extra K f) →
      ∀ f ∈ l.map (fun f => { f with dflt := true }), f ∈ l'.map (fun f => { f with dflt := true }) ∨ Extra K f := by
    intro l l' h f hf
    obtain ⟨g, hg, rfl⟩ := List.mem_map.1 hf
    rcases h g hg with hg | hg
    · exact .inl (List.mem_map.2 ⟨g, hg, rfl⟩)
    · exact .inr ⟨rfl, hg.2.1, hg.2.2.1, hg.2.2.2⟩
  exact ⟨one h.1, one h.2⟩

theorem sameVariant_name {v v' : Variant} (h : SameVariant K v v') : v.name = v'.name := by
  cases h with
  | same => rfl
  | fields _ h => assumption

theorem sameVariant_skip {v v' : Variant} (h : SameVariant K v v') : v.skipDe = v'.skipDe := by
  cases h with
  | same => rfl
  | fields _ h => assumption

theorem sameVariant_style {v v' : Variant} (h : SameVariant K v v') : deStyle v' = deStyle v := by
  cases h with
  | same => rfl
  | fields _ h1 h2 h3 h4 => unfold deStyle; rw [h3, h4]

/-- The fields of a variant or struct: the same, or if they are named, the same except for new ones. -/
def SameBody (K : Str → Prop) (st : Style) (fs fs' : List Field) : Prop := fs' = fs ∨ (st = .named ∧ SameFields K fs fs')

theorem sameVariant_body {v v' : Variant} (h : SameVariant K v v') : SameBody K (deStyle v) v.fields v'.fields := by
  cases h with
  | same => exact .inl rfl
  | fields _ h1 h2 h3 h4 h5 => exact .inr ⟨(by unfold deStyle; rw [h3]), h5⟩

theorem sameVariants_first {e e' : EnumDecl} (h : All2 (SameVariant K) e.variants e'.variants) {v : Variant} (hf : FirstNamed e v) :
    ∃ v', FirstNamed e' v' ∧ SameVariant K v v' := by
  have hk : All2 (SameVariant K) (e.variants.filter (fun v => !v.skipDe)) (e'.variants.filter (fun v => !v.skipDe)) := by
    generalize e.variants = l at h
    generalize e'.variants = l' at h
    induction h with
    | nil => exact .nil
    | @cons v v' _ _ h _ ih =>
      rw [List.filter_cons, List.filter_cons, sameVariant_skip h]
      cases v'.skipDe with
      | true => exact ih
      | false => exact .cons h ih
  unfold FirstNamed at hf ⊢
  generalize e.variants.filter (fun v => !v.skipDe) = l at hk hf
  generalize e'.variants.filter (fun v => !v.skipDe) = l' at hk
  suffices ∃ v', l'.find? (fun w => decide (w.name = v.name)) = some v' ∧ SameVariant K v v' by
    obtain ⟨v', h1, h2⟩ := this
    exact ⟨v', by rw [← sameVariant_name h2]; exact h1, h2⟩
  induction hk with
  | nil => cases hf
  | @cons w w' _ _ h _ ih =>
    rw [List.find?_cons] at hf ⊢
    rw [← sameVariant_name h]
    by_cases hn : w.name = v.name
    · simp only [hn, decide_true, Option.some.injEq] at hf ⊢
      subst hf
      exact ⟨w', rfl, h⟩
    · simp only [hn, decide_false] at hf ⊢
      exact ih hf

section
variable {P P' : Program}

theorem sameDecl_struct {s : StructDecl} {d' : Decl} (h : SameDecl K (.struct s) d') : ∃ s', d' = .struct s' ∧ s'.from_ = s.from_ ∧
    s'.transparent = s.transparent ∧ s'.deny = s.deny ∧ s'.style = s.style ∧ (s.transparent = true → s' = s) ∧
    SameBody K s.style (StructDecl.deFields s) (StructDecl.deFields s') := by
  cases h with
  | same => exact ⟨s, rfl, rfl, rfl, rfl, rfl, fun _ => rfl, .inl rfl⟩
  | struct _ s' h1 h2 h3 h4 h5 h6 h7 h8 =>
    refine ⟨s', rfl, h5.symm, by rw [h1, h2], h6.symm, by rw [h3, h4], (fun h => by rw [h1] at h; cases h), .inr ⟨h3, ?_⟩⟩
    unfold StructDecl.deFields
    rw [← h7]
    cases s.dfltAll with
    | true => exact sameFields_dflt h8
    | false => exact h8

/-- What is needed of two declarations for documents of the first one to be documents of the second one. -/
inductive FwdDecl (K : Str → Prop) : Decl → Decl → Prop where
  | same {d d' : Decl} : SameDecl K d d' → FwdDecl K d d'
  | enum (e e' : EnumDecl) : e.tag = e'.tag → e.from_ = e'.from_ → e.deny = e'.deny →
      (∀ v, FirstNamed e v → ∃ v', FirstNamed e' v' ∧ SameVariant K v v') →
      (∀ v ∈ e.variants, v.skipDe = false → ∃ v' ∈ e'.variants, SameVariant K v v') → FwdDecl K (.enum e) (.enum e')

/-- Programs that differ in fields whose names are in `K`. -/
def FwdProgram (K : Str → Prop) (P P' : Program) : Prop :=
  ∀ (i : Nat) (d : Decl), P[i]? = some d → ∃ d', P'[i]? = some d' ∧ FwdDecl K d d'

theorem fwdDecl_struct {s : StructDecl} {d' : Decl} (h : FwdDecl K (.struct s) d') : ∃ s', d' = .struct s' ∧ s'.from_ = s.from_ ∧
    s'.transparent = s.transparent ∧ s'.deny = s.deny ∧ s'.style = s.style ∧ (s.transparent = true → s' = s) ∧
    SameBody K s.style (StructDecl.deFields s) (StructDecl.deFields s') := by
  cases h with
  | same h => exact sameDecl_struct h

theorem fwdDecl_enum {e : EnumDecl} {d' : Decl} (h : FwdDecl K (.enum e) d') : ∃ e', d' = .enum e' ∧ e'.from_ = e.from_ ∧
    e'.tag = e.tag ∧ e'.deny = e.deny ∧ (∀ v, FirstNamed e v → ∃ v', FirstNamed e' v' ∧ SameVariant K v v') ∧
    (∀ v ∈ e.variants, v.skipDe = false → ∃ v' ∈ e'.variants, SameVariant K v v') := by
  cases h with
  | same h =>
    cases h with
    | same => exact ⟨e, rfl, rfl, rfl, rfl, fun v hv => ⟨v, hv, .same v⟩, fun v hv _ => ⟨v, hv, .same v⟩⟩
    | enum _ e' h1 h2 h3 h4 =>
      refine ⟨e', rfl, h2.symm, h1.symm, h3.symm, fun v hv => sameVariants_first h4 hv, fun v hv _ => ?_⟩
      obtain ⟨v', hm, hvv⟩ := All2.mem_left h4 hv
      exact ⟨v', hm, hvv⟩
  | enum _ e' h1 h2 h3 h4 h5 => exact ⟨e', rfl, h2.symm, h1.symm, h3.symm, h4, h5⟩

theorem fwdDecl_from {d d' : Decl} (h : FwdDecl K d d') : Spec.Decl.from_ d' = Spec.Decl.from_ d := by
  cases h with
  | same h =>
    cases h with
    | same => rfl
    | struct _ _ _ _ _ _ h => exact h.symm
    | enum _ _ _ h => exact h.symm
  | enum _ _ _ h => exact h.symm

theorem missing_more (hP : FwdProgram K P P') {t : Ty} (h : MissingOk P t) : MissingOk P' t := by
  induction h with
  | option t => exact .option t
  | wrap w t hw _ ih => exact .wrap w t hw ih
  | from_ i d t hd hf _ ih =>
    obtain ⟨d', hd', hs⟩ := hP _ _ hd
    exact .from_ i d' t hd' (by rw [fwdDecl_from hs]; exact hf) ih
  | transparent i s f hd hf ht hi _ ih =>
    obtain ⟨d', hd', hs⟩ := hP _ _ hd
    obtain ⟨s', rfl, _, _, _, _, e, _⟩ := fwdDecl_struct hs
    have := e ht
    subst this
    exact .transparent i s' f hd' hf ht hi ih

variable (hP : FwdProgram K P P')
include hP

mutual
theorem de_more : ∀ {t : Ty} {j : Json}, De P t j → LacksJ K j → De P' t j
  | _, _, .string s, _ => .string s
  | _, _, .smolStr s, _ => .smolStr s
  | _, _, .char c, _ => .char c
  | _, _, .bool b, _ => .bool b
  | _, _, .unit, _ => .unit
  | _, _, .int p lo hi i h1 h2 h3, _ => .int p lo hi i h1 h2 h3
  | _, _, .wide p lo hi i h1 h2 h3 h4, _ => .wide p lo hi i h1 h2 h3 h4
  | _, _, .float p n h, _ => .float p n h
  | _, _, .ipv4 p a b c d h, _ => .ipv4 p a b c d h
  | _, _, .ipv6 p s h hs, _ => .ipv6 p s h hs
  | _, _, .wrap w t j hw h, hj => .wrap w t _ hw (de_more h hj)
  | _, _, .phantom t, _ => .phantom t
  | _, _, .none t, _ => .none t
  | _, _, .some t j h, hj => .some t _ (de_more h hj)
  | _, _, .vec t js h, hj => .vec t js (fun j hm => de_more (h j hm) (lacks_arr hj j hm))
  | _, _, .array n t js hl h, hj => .array n t js hl (fun j hm => de_more (h j hm) (lacks_arr hj j hm))
  | _, _, .hashSet t js h, hj => .hashSet t js (fun j hm => de_more (h j hm) (lacks_arr hj j hm))
  | _, _, .btreeSet t js h, hj => .btreeSet t js (fun j hm => de_more (h j hm) (lacks_arr hj j hm))
  | _, _, .hashMap p t kvs hp h, hj => .hashMap p t kvs hp (fun kv hm => de_more (h kv hm) (lacks_vals hj kv hm))
  | _, _, .btreeMap p t kvs hp h, hj => .btreeMap p t kvs hp (fun kv hm => de_more (h kv hm) (lacks_vals hj kv hm))
  | _, _, .tuple ts js h, hj => .tuple ts js (des_more h (lacks_arr hj))
  | _, _, .ok t e j h, hj => .ok t e j (de_more h (lacks_vals hj _ List.mem_cons_self))
  | _, _, .err t e j h, hj => .err t e j (de_more h (lacks_vals hj _ List.mem_cons_self))
  | _, _, .from_ i d t j h1 h2 h, hj => by
    have ih := de_more h hj
    obtain ⟨d', hd', hs⟩ := hP _ _ h1
    exact .from_ i d' t j hd' (by rw [fwdDecl_from hs]; exact h2) ih
  | _, _, .transparent i s f j h1 h2 h3 h4 h, hj => by
    have ih := de_more h hj
    obtain ⟨d', hd', hs⟩ := hP _ _ h1
    obtain ⟨s', rfl, _, _, _, _, e, _⟩ := fwdDecl_struct hs
    have := e h3
    subst this
    exact .transparent i s' f j hd' h2 h3 h4 ih
  | _, _, .struct i s j h1 h2 h3 h, hj => by
    have ih := fun {fs'} => body_more h hj (fs' := fs')
    obtain ⟨d', hd', hs⟩ := hP _ _ h1
    obtain ⟨s', rfl, e1, e2, e3, e4, _, hb⟩ := fwdDecl_struct hs
    refine .struct i s' j hd' (by rw [e1]; exact h2) (by rw [e2]; exact h3) ?_
    rw [e3, e4]
    exact ih hb
  | _, _, .externalUnit i e v h1 h2 h3 h4 h5, _ => by
    obtain ⟨d', hd', hs⟩ := hP _ _ h1
    obtain ⟨e', rfl, e1, e2, e3, hv, hu⟩ := fwdDecl_enum hs
    obtain ⟨v', hf, hvv⟩ := hv _ h4
    rw [sameVariant_name hvv]
    exact .externalUnit i e' v' hd' (by rw [e1]; exact h2) (by rw [e2]; exact h3) hf (by rw [sameVariant_style hvv]; exact h5)
  | _, _, .external i e v j h1 h2 h3 h4 h, hj => by
    have ih := fun {fs'} => body_more h (lacks_vals hj _ List.mem_cons_self) (fs' := fs')
    obtain ⟨d', hd', hs⟩ := hP _ _ h1
    obtain ⟨e', rfl, e1, e2, e3, hv, hu⟩ := fwdDecl_enum hs
    obtain ⟨v', hf, hvv⟩ := hv _ h4
    rw [sameVariant_name hvv]
    refine .external i e' v' j hd' (by rw [e1]; exact h2) (by rw [e2]; exact h3) hf ?_
    rw [e3, sameVariant_style hvv]
    exact ih (sameVariant_body hvv)
  | _, _, .internalUnit i e v tag kvs h1 h2 h3 h4 h5 h6 h7, _ => by
    obtain ⟨d', hd', hs⟩ := hP _ _ h1
    obtain ⟨e', rfl, e1, e2, e3, hv, hu⟩ := fwdDecl_enum hs
    obtain ⟨v', hf, hvv⟩ := hv _ h4
    exact .internalUnit i e' v' tag kvs hd' (by rw [e1]; exact h2) (by rw [e2]; exact h3) hf (by rw [sameVariant_style hvv]; exact h5)
      h6 (by rw [← sameVariant_name hvv]; exact h7)
  | _, _, .internal i e v tag kvs h1 h2 h3 h4 h5 h6 h, hj => by
    have ih := fun {fs'} => body_more h hj (fs' := fs')
    obtain ⟨d', hd', hs⟩ := hP _ _ h1
    obtain ⟨e', rfl, e1, e2, e3, hv, hu⟩ := fwdDecl_enum hs
    obtain ⟨v', hf, hvv⟩ := hv _ h4
    refine .internal i e' v' tag kvs hd' (by rw [e1]; exact h2) (by rw [e2]; exact h3) hf (by rw [sameVariant_style hvv]; exact h5)
      (by rw [← sameVariant_name hvv]; exact h6) ?_
    rw [e3, sameVariant_style hvv]
    exact ih (sameVariant_body hvv)
  | _, _, .internalNewtype i e v tag f kvs h1 h2 h3 h4 h5 h6 h7 h8 h, hj => by
    have ih := de_more h (lacks_filter hj _)
    obtain ⟨d', hd', hs⟩ := hP _ _ h1
    obtain ⟨e', rfl, e1, e2, e3, hv, hu⟩ := fwdDecl_enum hs
    obtain ⟨v', hf, hvv⟩ := hv _ h4
    have hb := sameVariant_body hvv
    have he : v'.fields = [f] := by
      rcases hb with e | ⟨e, _⟩
      · rw [e]; exact h6
      · rw [h5] at e; cases e
    exact .internalNewtype i e' v' tag f kvs hd' (by rw [e1]; exact h2) (by rw [e2]; exact h3) hf
      (by rw [sameVariant_style hvv]; exact h5) he h7 (by rw [← sameVariant_name hvv]; exact h8) ih
  | _, _, .adjacentUnit i e v tag content kvs h1 h2 h3 h4 h5 h6 h7 h8 h9, _ => by
    obtain ⟨d', hd', hs⟩ := hP _ _ h1
    obtain ⟨e', rfl, e1, e2, e3, hv, hu⟩ := fwdDecl_enum hs
    obtain ⟨v', hf, hvv⟩ := hv _ h4
    exact .adjacentUnit i e' v' tag content kvs hd' (by rw [e1]; exact h2) (by rw [e2]; exact h3) hf
      (by rw [sameVariant_style hvv]; exact h5) h6 (by rw [← sameVariant_name hvv]; exact h7) h8 (by rw [e3]; exact h9)
  | _, _, .adjacent i e v tag content kvs j h1 h2 h3 h4 h5 h6 h7 h8 h, hj => by
    have ih := fun {fs'} => body_more h (lacks_jget hj h7) (fs' := fs')
    obtain ⟨d', hd', hs⟩ := hP _ _ h1
    obtain ⟨e', rfl, e1, e2, e3, hv, hu⟩ := fwdDecl_enum hs
    obtain ⟨v', hf, hvv⟩ := hv _ h4
    refine .adjacent i e' v' tag content kvs j hd' (by rw [e1]; exact h2) (by rw [e2]; exact h3) hf h5
      (by rw [← sameVariant_name hvv]; exact h6) h7 (by rw [e3]; exact h8) ?_
    rw [e3, sameVariant_style hvv]
    exact ih (sameVariant_body hvv)
  | _, _, .untaggedUnit i e v h1 h2 h3 h4 h5 h6, _ => by
    obtain ⟨d', hd', hs⟩ := hP _ _ h1
    obtain ⟨e', rfl, e1, e2, e3, hv, hu⟩ := fwdDecl_enum hs
    obtain ⟨v', hm, hvv⟩ := hu _ h4 h5
    exact .untaggedUnit i e' v' hd' (by rw [e1]; exact h2) (by rw [e2]; exact h3) hm (by rw [← sameVariant_skip hvv]; exact h5)
      (by rw [sameVariant_style hvv]; exact h6)
  | _, _, .untagged i e v j h1 h2 h3 h4 h5 h, hj => by
    have ih := fun {fs'} => body_more h hj (fs' := fs')
    obtain ⟨d', hd', hs⟩ := hP _ _ h1
    obtain ⟨e', rfl, e1, e2, e3, hv, hu⟩ := fwdDecl_enum hs
    obtain ⟨v', hm, hvv⟩ := hu _ h4 h5
    refine .untagged i e' v' j hd' (by rw [e1]; exact h2) (by rw [e2]; exact h3) hm (by rw [← sameVariant_skip hvv]; exact h5) ?_
    rw [e3, sameVariant_style hvv]
    exact ih (sameVariant_body hvv)

theorem des_more : ∀ {ts : List Ty} {js : List Json}, All2 (De P) ts js → (∀ j ∈ js, LacksJ K j) → All2 (De P') ts js
  | _, _, .nil, _ => .nil
  | _, _, .cons h1 h2, hj => .cons (de_more h1 (hj _ List.mem_cons_self)) (des_more h2 (fun j hm => hj j (List.mem_cons_of_mem _ hm)))

theorem body_more : ∀ {more : Option (List Str)} {st : Style} {fs fs' : List Field} {j : Json},
    DeBody P more st fs j → LacksJ K j → SameBody K st fs fs' → DeBody P' more st fs' j
  | _, _, _, _, _, .newtype more f j hk h, hj, hb => by
    have ih := de_more h hj
    rcases hb with rfl | ⟨e, _⟩
    · exact .newtype more f j hk ih
    · cases e
  | _, _, _, _, _, .tuple more fs js hl h, hj, hb => by
    have ih := des_more h (lacks_arr hj)
    rcases hb with rfl | ⟨e, _⟩
    · exact .tuple more _ js hl ih
    · cases e
  | _, _, _, _, _, .short more fs gs hs js hl hk hd h, hj, hb => by
    have ih := des_more h (lacks_arr hj)
    rcases hb with rfl | ⟨e, _⟩
    · exact .short more _ gs hs js hl hk hd ih
    · cases e
  | _, _, _, fs', _, .named more fs kvs hd hmore h hfl, hj, hb => by
    have ih1 := fun f hf hs hn => field_more (h f hf hs hn) hj
    have ih2 := fun f hf hs hn => de_more (hfl f hf hs hn) (lacks_filter hj _)
    have hsame : SameFields K fs fs' := by
      rcases hb with rfl | ⟨_, h⟩
      · exact ⟨fun f hf => .inl hf, fun f hf => .inl hf⟩
      · exact h
    refine .named more fs' kvs hd (fun names hm p hp => ?_) (fun f hf hs hn => ?_) (fun f hf hs hn => ?_)
    · rcases List.mem_append.1 (hmore names hm p hp) with hm | hm
      · exact List.mem_append.2 (.inl hm)
      · exact List.mem_append.2 (.inr ((sameFields_plain hsame hm).resolve_right (lacks_keys hj p hp)))
    · rcases hsame.2 f hf with hf | ⟨hx1, hx2, hx3, hx4⟩
      · exact ih1 f hf hs hn
      · exact .default f kvs hx2 (fun a ha => lacks_jget_none hj (hx4 a ha)) hx1
    · rcases hsame.2 f hf with hf | ⟨_, hx, _⟩
      · rw [← sameFields_filter hsame hj]
        exact ih2 f hf hs hn
      · rw [hx] at hn; cases hn

theorem field_more : ∀ {f : Field} {kvs : List (Str × Json)}, DeField P f kvs → LacksJ K (.obj kvs) → DeField P' f kvs
  | _, _, .present f kvs j hf hj ha h, hl => .present f kvs j hf hj ha (de_more h (lacks_jget hl hj))
  | _, _, .alias f kvs a j hf ha hj hb h, hl => .alias f kvs a j hf ha hj hb (de_more h (lacks_jget hl hj))
  | _, _, .default f kvs hf hj h, _ => .default f kvs hf hj h
  | _, _, .missing f kvs hf hj h, _ => .missing f kvs hf hj (missing_more hP h)
end

end

theorem all2_fwd {P P' : Program} (h : All2 (SameDecl K) P P') : FwdProgram K P P' := by
  intro i d hd
  obtain ⟨d', h1, h2⟩ := all2_get h hd
  exact ⟨d', h1, .same h2⟩

/-- serde accepts the same documents. -/
theorem de_evolve {P P' : Program} (hP : MoreProgram K P P') {t : Ty} {j : Json} (hj : Lacks K (fromJson j)) : De P t j ↔ De P' t j := by
  have h : All2 (SameDecl K) P P' := All2.imp_mem hP (fun _ _ _ h => moreDecl_same h)
  exact ⟨fun hd => de_more (all2_fwd h) hd hj, fun hd => de_more (all2_fwd (all2_symm (fun _ _ h => SameDecl.symm h) h)) hd hj⟩

theorem moreVariants_mem {vs vs' : List Variant} (h : MoreVariants K vs vs') : ∀ v ∈ vs, ∃ v' ∈ vs', SameVariant K v v' := by
  induction h with
  | nil => intro v hv; cases hv
  | @same v v' _ _ h _ ih =>
    intro w hw
    rcases List.mem_cons.1 hw with rfl | hw
    · exact ⟨v', List.mem_cons_self, moreVariant_same h⟩
    · obtain ⟨w', h1, h2⟩ := ih w hw
      exact ⟨w', List.mem_cons_of_mem _ h1, h2⟩
  | new v _ ih =>
    intro w hw
    obtain ⟨w', h1, h2⟩ := ih w hw
    exact ⟨w', List.mem_cons_of_mem _ h1, h2⟩

theorem first_of_names {vs : List Variant} (nd : (vs.map (·.name)).Nodup) {v : Variant} (hv : v ∈ vs) (hs : v.skipDe = false) :
    (vs.filter (fun v => !v.skipDe)).find? (fun w => decide (w.name = v.name)) = some v := by
  induction vs with
  | nil => cases hv
  | cons w r ih =>
    rw [List.map_cons, List.nodup_cons] at nd
    rw [List.filter_cons]
    rcases List.mem_cons.1 hv with rfl | hv
    · simp [hs]
    · have hne : w.name ≠ v.name := fun e => nd.1 (e ▸ List.mem_map.2 ⟨v, hv, rfl⟩)
      cases w.skipDe with
      | true => exact ih nd.2 hv
      | false =>
        simp only [Bool.not_false, if_true, List.find?_cons, hne, decide_false]
        exact ih nd.2 hv

/-- serde goes on to accept what it accepts. -/
theorem de_wider {P P' : Program} (hP : WiderProgram K P P') (hn : ∀ e, Decl.enum e ∈ P' → (e.variants.map (·.name)).Nodup) {t : Ty}
    {j : Json} (hj : Lacks K (fromJson j)) (h : De P t j) : De P' t j := by
  refine de_more (K := K) ?_ h hj
  intro i d hd
  obtain ⟨d', h1, h2⟩ := hP i d hd
  refine ⟨d', h1, ?_⟩
  cases h2 with
  | fields h => exact .same (moreDecl_same h)
  | variants e vs hv =>
    have nd := hn _ (List.mem_of_getElem? h1)
    refine .enum _ _ rfl rfl rfl (fun v hf => ?_) (fun v hm _ => moreVariants_mem hv v hm)
    have hk := List.mem_filter.1 (List.mem_of_find?_eq_some hf)
    have hs : v.skipDe = false := by simpa using hk.2
    obtain ⟨v', h3, h4⟩ := moreVariants_mem hv v hk.1
    exact ⟨v', first_of_names nd h3 (by rw [← sameVariant_skip h4]; exact hs), h4⟩

end Verif.Zod
