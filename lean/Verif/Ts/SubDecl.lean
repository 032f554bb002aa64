import Verif.Ts.Sub
import Verif.Ts.Bridge
import Verif.Zod.NarrowerDe
import Verif.Spec.Reorder

/-!
# The types of a program and of one that has grown
-/

namespace Verif.Ts
open Verif Verif.Js Verif.Schema Verif.Spec Verif.SchemaSpec Verif.Zod

section
variable {w : Prop} {K : Str → Prop} {D D' : TsEnv} {Q : Str → Str → Prop}

/-! ## Alternatives -/

/-- All of the second is implied by the first. -/
def SubC (K : Str → Prop) (D D' : TsEnv) (Q : Str → Str → Prop) (c c' : List TsType) : Prop := ∀ u ∈ c', ∃ t ∈ c, SubT K D D' Q t u

/-- The second has the alternatives of the first in the same order, and others. If `w`, the order is free. -/
inductive SubD (w : Prop) (K : Str → Prop) (D D' : TsEnv) (Q : Str → Str → Prop) : Dnf → Dnf → Prop where
  | nil (d : Dnf) : SubD w K D D' Q [] d
  | same {c c' : List TsType} {d d' : Dnf} : SubC K D D' Q c c' → SubD w K D D' Q d d' → SubD w K D D' Q (c :: d) (c' :: d')
  | new (c' : List TsType) {d d' : Dnf} : SubD w K D D' Q d d' → SubD w K D D' Q d (c' :: d')
  | any {d d' : Dnf} : w → (∀ c ∈ d, ∃ c' ∈ d', SubC K D D' Q c c') → SubD w K D D' Q d d'

theorem subD_one {t u : TsType} (h : SubT K D D' Q t u) : SubD w K D D' Q [[t]] [[u]] :=
  .same (fun x hx => ⟨t, by simp, by rw [List.mem_singleton.1 hx]; exact h⟩) (.nil _)

theorem subD_mem {d d' : Dnf} (h : SubD w K D D' Q d d') : ∀ c ∈ d, ∃ c' ∈ d', SubC K D D' Q c c' := by
  induction h with
  | nil => intro c hc; cases hc
  | same h _ ih =>
    intro c hc
    rcases List.mem_cons.1 hc with rfl | hc
    · exact ⟨_, List.mem_cons_self, h⟩
    · obtain ⟨c', h1, h2⟩ := ih c hc
      exact ⟨c', List.mem_cons_of_mem _ h1, h2⟩
  | new _ _ ih =>
    intro c hc
    obtain ⟨c', h1, h2⟩ := ih c hc
    exact ⟨c', List.mem_cons_of_mem _ h1, h2⟩
  | any _ h => exact h

theorem subC_left {c : List TsType} {t u : TsType} (ht : t ∈ c) (h : SubT K D D' Q t u) : SubT K D D' Q (ofConj c) u := by
  match c, ht with
  | [x], ht => rw [List.mem_singleton.1 ht] at h; exact h
  | x :: y :: r, ht => exact .interLeft _ t u ht h

theorem subC_type {c c' : List TsType} (h : SubC K D D' Q c c') : SubT K D D' Q (ofConj c) (ofConj c') := by
  have one : ∀ u ∈ c', SubT K D D' Q (ofConj c) u := by
    intro u hu
    obtain ⟨t, ht, hs⟩ := h u hu
    exact subC_left ht hs
  match c', one with
  | [], _ => exact .interRight _ _ (fun u hu => by cases hu)
  | [u], one => exact one u (by simp)
  | u :: w :: r, one => exact .interRight _ _ one

theorem subD_right {d : Dnf} {c : List TsType} {t : TsType} (hc : c ∈ d) (h : SubT K D D' Q t (ofConj c)) : SubT K D D' Q t (ofDnf d) := by
  match d, hc with
  | [x], hc => rw [List.mem_singleton.1 hc] at h; exact h
  | x :: y :: r, hc => exact .unionRight t (ofConj c) _ (List.mem_map.2 ⟨c, hc, rfl⟩) h

theorem subD_type {d d' : Dnf} (h : SubD w K D D' Q d d') : SubT K D D' Q (ofDnf d) (ofDnf d') := by
  have one : ∀ c ∈ d, SubT K D D' Q (ofConj c) (ofDnf d') := by
    intro c hc
    obtain ⟨c', h1, h2⟩ := subD_mem h c hc
    exact subD_right h1 (subC_type h2)
  have all : ∀ t ∈ d.map ofConj, SubT K D D' Q t (ofDnf d') := by
    intro t ht
    obtain ⟨c, hc, rfl⟩ := List.mem_map.1 ht
    exact one c hc
  match d, one, all with
  | [], _, all => exact .unionLeft _ _ all
  | [c], one, _ => exact one c (by simp)
  | c :: e :: r, _, all => exact .unionLeft _ _ all

theorem subD_skip (l : Dnf) {d d' : Dnf} (h : SubD w K D D' Q d d') : SubD w K D D' Q d (l ++ d') := by
  induction l with
  | nil => exact h
  | cons c _ ih => exact .new c ih

theorem subD_append {d d' e e' : Dnf} (h : SubD w K D D' Q d d') (h' : SubD w K D D' Q e e') : SubD w K D D' Q (d ++ e) (d' ++ e') := by
  induction h with
  | nil d => exact subD_skip d h'
  | same h _ ih => exact .same h ih
  | new c _ ih => exact .new c ih
  | any hw h =>
    refine .any hw (fun c hc => ?_)
    rcases List.mem_append.1 hc with hc | hc
    · obtain ⟨c', h1, h2⟩ := h c hc
      exact ⟨c', List.mem_append.2 (.inl h1), h2⟩
    · obtain ⟨c', h1, h2⟩ := subD_mem h' c hc
      exact ⟨c', List.mem_append.2 (.inr h1), h2⟩

theorem subD_left (hw : ¬ w) {d₁ d e : Dnf} (hs : All2 (fun a b => ∀ t ∈ b, t ∈ a) d₁ d) (h : SubD w K D D' Q d e) : SubD w K D D' Q d₁ e := by
  induction h generalizing d₁ with
  | nil => cases hs; exact .nil _
  | same h _ ih =>
    cases hs with
    | cons h1 h2 =>
      refine .same (fun u hu => ?_) (ih h2)
      obtain ⟨t, ht, hs⟩ := h u hu
      exact ⟨t, h1 t ht, hs⟩
  | new c _ ih => exact .new c (ih hs)
  | any h => exact absurd h hw

theorem all2_sup_refl (d : Dnf) : All2 (fun a b : List TsType => ∀ t ∈ b, t ∈ a) d d := by
  induction d with
  | nil => exact .nil
  | cons c d ih => exact .cons (fun t ht => ht) ih

theorem subD_tail (hw : ¬ w) {c : List TsType} {d e : Dnf} (h : SubD w K D D' Q (c :: d) e) : SubD w K D D' Q d e := by
  generalize hx : c :: d = x at h
  induction h with
  | nil => cases hx
  | same _ h _ => cases hx; exact .new _ h
  | new c _ ih => exact .new c (ih hx)
  | any h => exact absurd h hw

theorem subD_empty {c : List TsType} {d : Dnf} (h : SubD w K D D' Q (c :: d) []) : False := by
  obtain ⟨_, h, _⟩ := subD_mem h c List.mem_cons_self
  cases h

theorem subD_snoc (hw : ¬ w) {l l' : List TsType} {i' : Dnf} : ∀ {i : Dnf}, SubD w K D D' Q (i ++ [l]) (i' ++ [l']) →
    (SubD w K D D' Q i i' ∧ SubC K D D' Q l l') ∨ SubD w K D D' Q (i ++ [l]) i' := by
  induction i' with
  | nil =>
    intro i h
    match i, h with
    | [], .same h1 _ => exact .inl ⟨.nil _, h1⟩
    | c :: i, .same _ h2 =>
      match i, h2 with
      | [], h2 => exact (subD_empty h2).elim
      | _ :: _, h2 => exact (subD_empty h2).elim
    | [], .new _ h => exact (subD_empty h).elim
    | c :: i, .new _ h => exact (subD_empty h).elim
    | [], .any h _ => exact absurd h hw
    | _ :: _, .any h _ => exact absurd h hw
  | cons a i' ih =>
    intro i h
    match i, h with
    | [], .same h1 _ => exact .inr (.same h1 (.nil _))
    | c :: i, .same h1 h2 =>
      rcases ih h2 with ⟨h3, h4⟩ | h3
      · exact .inl ⟨.same h1 h3, h4⟩
      · exact .inr (.same h1 h3)
    | [], .new _ h =>
      rcases ih (i := []) h with ⟨h3, h4⟩ | h3
      · exact .inl ⟨.new _ h3, h4⟩
      · exact .inr (.new _ h3)
    | c :: i, .new _ h =>
      rcases ih (i := c :: i) h with ⟨h3, h4⟩ | h3
      · exact .inl ⟨.new _ h3, h4⟩
      · exact .inr (.new _ h3)
    | [], .any h _ => exact absurd h hw
    | _ :: _, .any h _ => exact absurd h hw

theorem andDnf_snoc (i : Dnf) (l c : List TsType) (r : Dnf) : andDnf (i ++ [l]) (c :: r) = i ++ (l ++ c) :: r := by
  have : andDnf (i ++ [l]) (c :: r) = (i ++ [l]).dropLast ++ [((i ++ [l]).getLast?).getD [] ++ c] ++ r := by
    cases i <;> rfl
  rw [this]
  simp

theorem subD_and (hw : ¬ w) {d d' e e' : Dnf} (h : SubD w K D D' Q d d') (h' : SubD w K D D' Q e e') :
    SubD w K D D' Q (andDnf d e) (andDnf d' e') := by
  rcases List.eq_nil_or_concat d with rfl | ⟨i, l, rfl⟩
  · exact .nil _
  rw [List.concat_eq_append] at h ⊢
  match e, e', h' with
  | [], _, _ => cases i <;> exact .nil _
  | c :: r, [], h' => exact (subD_empty h').elim
  | c :: r, c' :: r', h' =>
    rcases List.eq_nil_or_concat d' with rfl | ⟨i', l', rfl⟩
    · cases i <;> exact (subD_empty h).elim
    rw [List.concat_eq_append] at h ⊢
    rw [andDnf_snoc, andDnf_snoc]
    have wide : SubD w K D D' Q (i ++ [l]) i' → SubD w K D D' Q (i ++ [l ++ c]) i' := fun h => subD_left hw
      (by
        generalize i = i
        induction i with
        | nil => exact .cons (fun t ht => List.mem_append.2 (.inl ht)) .nil
        | cons a i ih => exact .cons (fun t ht => ht) ih) h
    have e1 : i ++ (l ++ c) :: r = (i ++ [l ++ c]) ++ r := by simp
    rcases subD_snoc hw h with ⟨h1, h2⟩ | h1
    · refine subD_append h1 ?_
      cases h' with
      | same h3 h4 =>
        refine .same (fun u hu => ?_) h4
        rcases List.mem_append.1 hu with hu | hu
        · obtain ⟨t, ht, hs⟩ := h2 u hu
          exact ⟨t, List.mem_append.2 (.inl ht), hs⟩
        · obtain ⟨t, ht, hs⟩ := h3 u hu
          exact ⟨t, List.mem_append.2 (.inr ht), hs⟩
      | new _ h3 =>
        exact .new _ (subD_left hw (.cons (fun t ht => List.mem_append.2 (.inr ht)) (all2_sup_refl r)) h3)
      | any h _ => exact absurd h hw
    · rw [e1]
      refine subD_append (wide h1) (.new _ ?_)
      cases h' with
      | same _ h4 => exact h4
      | new _ h3 => exact subD_tail hw h3
      | any h _ => exact absurd h hw

theorem subD_foldl {ds ds' : List Dnf} (hw : w → ds = []) (hs : All2 (SubD w K D D' Q) ds ds') {d d' : Dnf} (h : SubD w K D D' Q d d') :
    SubD w K D D' Q (ds.foldl andDnf d) (ds'.foldl andDnf d') := by
  by_cases hw' : w
  · have := hw hw'
    subst this
    cases hs
    exact h
  clear hw
  induction hs generalizing d d' with
  | nil => exact h
  | cons h1 _ ih => exact ih (subD_and hw' h h1)

theorem subD_refl_undef : SubD w K D D' Q undefD undefD := subD_one (.word _)

theorem sub_obj {ps qs : List (Str × Bool × TsType)}
    (h : ∀ q ∈ qs, (∃ p ∈ ps, p.1 = q.1 ∧ p.2.1 = q.2.1 ∧ SubT K D D' Q p.2.2 q.2.2) ∨ (K q.1 ∧ q.2.1 = true)) :
    SubT K D D' Q (.obj ps) (.obj qs) := by
  classical
  refine .obj ps qs (fun q => if h : ∃ p ∈ ps, p.1 = q.1 ∧ p.2.1 = q.2.1 ∧ SubT K D D' Q p.2.2 q.2.2 then some h.choose else none) ?_ ?_ ?_
  · intro q hq hn
    rcases h q hq with hp | hk
    · rw [dif_pos hp] at hn; cases hn
    · exact hk
  · intro q hq p hp
    split at hp
    · cases hp
      rename_i hx
      exact ⟨hx.choose_spec.1, hx.choose_spec.2.1, hx.choose_spec.2.2.1⟩
    · cases hp
  · intro q hq p hp
    split at hp
    · cases hp
      rename_i hx
      exact hx.choose_spec.2.2.2
    · cases hp

theorem sub_tuple {l : List α} {f g : α → TsType} (h : ∀ a ∈ l, SubT K D D' Q (f a) (g a)) :
    SubT K D D' Q (.tuple (l.map f)) (.tuple (l.map g)) := by
  refine .tuple _ _ (by simp) (fun i t u ht hu => ?_)
  rw [List.getElem?_map] at ht hu
  cases ha : l[i]? with
  | none => rw [ha] at ht; cases ht
  | some a =>
    rw [ha] at ht hu
    cases ht; cases hu
    exact h a (List.mem_of_getElem? ha)

theorem sub_app1 {p : List Str} {t u : TsType} (h : SubT K D D' Q t u) : SubT K D D' Q (.app p [t]) (.app p [u]) := by
  refine .app p _ _ rfl (fun i a b ha hb => ?_)
  match i, ha, hb with
  | 0, ha, hb => cases ha; cases hb; exact h
  | n + 1, ha, _ => simp at ha

theorem sub_app2 {p : List Str} {t u t' u' : TsType} (h : SubT K D D' Q t u) (h' : SubT K D D' Q t' u') :
    SubT K D D' Q (.app p [t, t']) (.app p [u, u']) := by
  refine .app p _ _ rfl (fun i a b ha hb => ?_)
  match i, ha, hb with
  | 0, ha, hb => cases ha; cases hb; exact h
  | 1, ha, hb => cases ha; cases hb; exact h'
  | n + 2, ha, _ => simp at ha

/-! ## Declarations -/

/-- The fields on the right are among those on the left, or optional and of a name in `K`. -/
def FieldsSub (S : Ty → Prop) (K : Str → Prop) (fs gs : List Field) : Prop :=
  ∀ g ∈ gs, g.skipDe = false → (g ∈ fs ∧ S g.ty) ∨ (g.dflt = true ∧ g.named = true ∧ g.flatten = false ∧ K g.name)

/-- Variants that give smaller types. -/
inductive VariantsSub (S : Ty → Prop) (K : Str → Prop) : List Variant → List Variant → Prop where
  | nil : VariantsSub S K [] []
  | same (v : Variant) {l l' : List Variant} : (v.skipDe = false → ∀ t ∈ fieldTypes v.fields, S t) → VariantsSub S K l l' →
      VariantsSub S K (v :: l) (v :: l')
  | fields {v v' : Variant} {l l' : List Variant} : v.style = .named → v'.style = .named → v.name = v'.name → v.skipDe = v'.skipDe →
      (v.skipDe = false → FieldsSub S K v.fields v'.fields) → VariantsSub S K l l' → VariantsSub S K (v :: l) (v' :: l')
  | new (v : Variant) {l l' : List Variant} : VariantsSub S K l l' → VariantsSub S K l (v :: l')

/-- Declarations that give smaller types. -/
inductive DeclSub (w : Prop) (S : Ty → Prop) (K : Str → Prop) (Q : Str → Str → Prop) : Decl → Decl → Prop where
  | same (d : Decl) : (∀ t ∈ declTypes d, S t) → Q d.ns d.name → (w → flattenedFields d = []) → DeclSub w S K Q d d
  | struct (s s' : StructDecl) : s.transparent = false → s'.transparent = false → s.style = .named → s'.style = .named →
      s.ns = s'.ns → s.name = s'.name → s.from_ = s'.from_ → (∀ t ∈ s.from_.ty?.toList, S t) → Q s.ns s.name →
      FieldsSub S K s.fields s'.fields → (sfieldsOf s'.fields).filter (·.flatten) = (sfieldsOf s.fields).filter (·.flatten) →
      (w → flattenedFields (.struct s) = []) → DeclSub w S K Q (.struct s) (.struct s')
  | enum (e e' : EnumDecl) : e.ns = e'.ns → e.name = e'.name → e.from_ = e'.from_ → e.tag = e'.tag → (∀ t ∈ e.from_.ty?.toList, S t) →
      Q e.ns e.name → VariantsSub S K e.variants e'.variants → DeclSub w S K Q (.enum e) (.enum e')
  | perm (e : EnumDecl) (vs : List Variant) : w → e.variants.Perm vs → (∀ t ∈ declTypes (.enum e), S t) → Q e.ns e.name →
      DeclSub w S K Q (.enum e) (.enum { e with variants := vs })

variable {S : Ty → Prop} {rec rec' : Method → Ty → Dnf}

/-- `rec` and `rec'` give types that are related so. -/
def SubTypes (w : Prop) (S : Ty → Prop) (K : Str → Prop) (D D' : TsEnv) (Q : Str → Str → Prop) (rec rec' : Method → Ty → Dnf) : Prop :=
  ∀ m t, S t → SubD w K D D' Q (rec m t) (rec' m t)

theorem subD_opt {b : Bool} {d d' : Dnf} (h : SubD w K D D' Q d d') : SubD w K D D' Q (optD b d) (optD b d') := by
  cases b with
  | false => exact h
  | true => exact subD_append h subD_refl_undef

theorem mem_sfieldsOf {f : SField} {fs : List Field} (h : f ∈ sfieldsOf fs) : ∃ g ∈ fs, g.skipDe = false ∧ SField.ofField false g = f := by
  obtain ⟨g, hg, rfl⟩ := List.mem_map.1 h
  obtain ⟨h1, h2⟩ := List.mem_filter.1 hg
  exact ⟨g, h1, by simpa using h2, rfl⟩

theorem mem_sfieldsOf' {g : Field} {fs : List Field} (h : g ∈ fs) (hs : g.skipDe = false) : SField.ofField false g ∈ sfieldsOf fs :=
  List.mem_map.2 ⟨g, List.mem_filter.2 ⟨h, by simp [hs]⟩, rfl⟩

theorem struct_obj_sub (H : SubTypes w S K D D' Q rec rec') {fs gs : List Field} (h : FieldsSub S K fs gs) :
    SubT K D D' Q (.obj ((((sfieldsOf fs).filter (fun f => !f.flatten)).map (sfieldP rec)).map propT))
      (.obj ((((sfieldsOf gs).filter (fun f => !f.flatten)).map (sfieldP rec')).map propT)) := by
  refine sub_obj (fun q hq => ?_)
  obtain ⟨x, hx, rfl⟩ := List.mem_map.1 hq
  obtain ⟨f, hf, rfl⟩ := List.mem_map.1 hx
  obtain ⟨h1, h2⟩ := List.mem_filter.1 hf
  obtain ⟨g, hg, hs, rfl⟩ := mem_sfieldsOf h1
  rcases h g hg hs with ⟨h3, h4⟩ | ⟨h3, h4, h5, h6⟩
  · exact .inl ⟨propT (sfieldP rec (SField.ofField false g)), List.mem_map.2 ⟨_, List.mem_map.2 ⟨_, List.mem_filter.2
      ⟨mem_sfieldsOf' h3 hs, h2⟩, rfl⟩, rfl⟩, rfl, rfl, subD_type (subD_opt (H _ _ h4))⟩
  · refine .inr ⟨?_, h3⟩
    show K ((SField.ofField false g).name.getD [])
    simpa [SField.ofField, h4] using h6

theorem no_flat {fs : List Field} (h : fs.filter (·.flatten) = []) : (sfieldsOf fs).filter (·.flatten) = [] := by
  refine List.filter_eq_nil_iff.2 (fun f hf hx => ?_)
  obtain ⟨g, hg, _, rfl⟩ := mem_sfieldsOf hf
  exact List.filter_eq_nil_iff.1 h g hg hx

theorem flat_sub (H : SubTypes w S K D D' Q rec rec') {f : SField} (h : S f.ty) : SubD w K D D' Q (flatD rec f) (flatD rec' f) := by
  unfold flatD
  cases f.optional with
  | false => exact H _ _ h
  | true => exact subD_one (subD_type (subD_append (H _ _ h) subD_refl_undef))

theorem all2_map_sub {α : Type} {R : Dnf → Dnf → Prop} {f g : α → Dnf} {l : List α} (h : ∀ a ∈ l, R (f a) (g a)) : All2 R (l.map f) (l.map g) := by
  induction l with
  | nil => exact .nil
  | cons a l ih => exact .cons (h a List.mem_cons_self) (ih (fun b hb => h b (List.mem_cons_of_mem _ hb)))

theorem struct_sub (H : SubTypes w S K D D' Q rec rec') {s s' : StructDecl} (h1 : s.transparent = false) (h1' : s'.transparent = false)
    (h2 : s.style = .named) (h2' : s'.style = .named) (h : FieldsSub S K s.fields s'.fields)
    (hf : (sfieldsOf s'.fields).filter (·.flatten) = (sfieldsOf s.fields).filter (·.flatten))
    (hw : w → flattenedFields (.struct s) = []) :
    SubD w K D D' Q (structD rec s) (structD rec' s') := by
  have e : structFields s = sfieldsOf s.fields := by unfold structFields sfieldsOf; rw [h1]
  have e' : structFields s' = sfieldsOf s'.fields := by unfold structFields sfieldsOf; rw [h1']
  unfold structD
  simp only [h1, h1', h2, h2', e, e']
  rw [hf]
  refine subD_foldl (fun hx => by rw [no_flat (hw hx)]; rfl) (all2_map_sub (fun f hx => flat_sub H ?_)) (subD_one (struct_obj_sub H h))
  rw [← hf] at hx
  obtain ⟨h3, h4⟩ := List.mem_filter.1 hx
  obtain ⟨g, hg, hs, rfl⟩ := mem_sfieldsOf h3
  rcases h g hg hs with ⟨_, h5⟩ | ⟨_, _, h5, _⟩
  · exact h5
  · exact absurd h5 (by simpa [SField.ofField] using h4)

theorem structD_same (H : SubTypes w S K D D' Q rec rec') {s : StructDecl} (h : ∀ t ∈ fieldTypes s.fields, S t)
    (hw : w → flattenedFields (.struct s) = []) : SubD w K D D' Q (structD rec s) (structD rec' s) := by
  have hS : ∀ f ∈ structFields s, S f.ty := by
    intro f hf
    obtain ⟨g, hg, rfl⟩ := List.mem_map.1 hf
    exact h _ (List.mem_map.2 ⟨g, hg, rfl⟩)
  have hF : ∀ f ∈ (structFields s).filter (fun f => !f.flatten), SubD w K D D' Q (sfieldD rec f) (sfieldD rec' f) :=
    fun f hf => subD_opt (H _ _ (hS f (List.mem_filter.1 hf).1))
  unfold structD
  simp only
  generalize hl : (structFields s).filter (fun f => !f.flatten) = l at hF ⊢
  cases ht : s.transparent with
  | true =>
    cases l with
    | nil => exact .nil _
    | cons f _ => exact hF f List.mem_cons_self
  | false =>
    cases hst : s.style with
    | unit => exact .nil _
    | tuple =>
      match l, hF with
      | [], _ => exact .nil _
      | [f], hF => exact hF f List.mem_cons_self
      | f :: f' :: r, hF =>
        refine subD_one ?_
        rw [List.map_map, List.map_map]
        exact sub_tuple (fun a ha => subD_type (hF a ha))
    | named =>
      have e : w → (structFields s).filter (·.flatten) = [] := by
        intro hx
        have := no_flat (hw hx)
        unfold structFields sfieldsOf at *
        rw [ht]
        exact this
      refine subD_foldl (fun hx => by rw [e hx]; rfl) (all2_map_sub (fun f hf => flat_sub H (hS f (List.mem_filter.1 hf).1))) (subD_one (sub_obj (fun q hq => ?_)))
      obtain ⟨x, hx, rfl⟩ := List.mem_map.1 hq
      obtain ⟨f, hf, rfl⟩ := List.mem_map.1 hx
      exact .inl ⟨propT (sfieldP rec f), List.mem_map.2 ⟨_, List.mem_map.2 ⟨f, hf, rfl⟩, rfl⟩, rfl, rfl, subD_type (hF f hf)⟩

theorem obj_one {n : Str} {t u : TsType} (h : SubT K D D' Q t u) : SubT K D D' Q (.obj [(n, false, t)]) (.obj [(n, false, u)]) := by
  refine sub_obj (fun q hq => .inl ⟨_, List.mem_cons_self, ?_⟩)
  rw [List.mem_singleton.1 hq]
  exact ⟨rfl, rfl, h⟩

theorem obj_tag {n c s : Str} {t u : TsType} (h : SubT K D D' Q t u) :
    SubT K D D' Q (.obj [(n, false, .str s), (c, false, t)]) (.obj [(n, false, .str s), (c, false, u)]) := by
  refine sub_obj (fun q hq => .inl ?_)
  rcases List.mem_cons.1 hq with rfl | hq
  · exact ⟨_, List.mem_cons_self, rfl, rfl, .str s⟩
  · rw [List.mem_singleton.1 hq]
    exact ⟨_, List.mem_cons_of_mem _ List.mem_cons_self, rfl, rfl, h⟩

theorem unit_sub (tag : Tag) (n : Str) : SubT K D D' Q (unitD tag n) (unitD tag n) := by
  cases tag with
  | external => exact .str n
  | internal t => exact obj_one (.str n)
  | adjacent t c => exact obj_one (.str n)
  | untagged => exact .word _

theorem props_sub (H : SubTypes w S K D D' Q rec rec') {fs gs : List Field} (h : FieldsSub S K fs gs) :
    ∀ q ∈ ((gs.filter (fun f => !f.skipDe)).map (vfieldP rec')).map propT,
      (∃ p ∈ ((fs.filter (fun f => !f.skipDe)).map (vfieldP rec)).map propT, p.1 = q.1 ∧ p.2.1 = q.2.1 ∧ SubT K D D' Q p.2.2 q.2.2) ∨
        (K q.1 ∧ q.2.1 = true) := by
  intro q hq
  obtain ⟨x, hx, rfl⟩ := List.mem_map.1 hq
  obtain ⟨g, hg, rfl⟩ := List.mem_map.1 hx
  obtain ⟨h1, h2⟩ := List.mem_filter.1 hg
  rcases h g h1 (by simpa using h2) with ⟨h3, h4⟩ | ⟨h3, _, _, h6⟩
  · exact .inl ⟨propT (vfieldP rec g), List.mem_map.2 ⟨_, List.mem_map.2 ⟨g, List.mem_filter.2 ⟨h3, h2⟩, rfl⟩, rfl⟩, rfl, rfl,
      subD_type (subD_opt (H _ _ h4))⟩
  · exact .inr ⟨h6, h3⟩

theorem structVariant_sub (H : SubTypes w S K D D' Q rec rec') (tag : Tag) {v v' : Variant} (hn : v.name = v'.name)
    (h : FieldsSub S K v.fields v'.fields) : SubD w K D D' Q (structVariantD rec tag v) (structVariantD rec' tag v') := by
  have hp := props_sub H h
  unfold structVariantD Variant.kept
  rw [hn]
  cases tag with
  | external => exact subD_one (obj_one (sub_obj hp))
  | adjacent t c => exact subD_one (obj_tag (sub_obj hp))
  | untagged => exact subD_one (sub_obj hp)
  | internal t =>
    refine subD_one (sub_obj (fun q hq => ?_))
    rcases List.mem_cons.1 hq with rfl | hq
    · exact .inl ⟨_, List.mem_cons_self, rfl, rfl, .str _⟩
    · rcases hp q hq with ⟨p, h1, h2⟩ | h1
      · exact .inl ⟨p, List.mem_cons_of_mem _ h1, h2⟩
      · exact .inr h1

theorem fieldsSub_refl {fs : List Field} (h : ∀ t ∈ fieldTypes fs, S t) : FieldsSub S K fs fs :=
  fun g hg hs => .inl ⟨hg, h _ (List.mem_map.2 ⟨g, List.mem_filter.2 ⟨hg, by simp [hs]⟩, rfl⟩)⟩

theorem tupleFields_sub (H : SubTypes w S K D D' Q rec rec') {fs : List Field} (h : ∀ f ∈ fs, S f.ty) :
    SubD w K D D' Q (tupleFieldsD rec fs) (tupleFieldsD rec' fs) := by
  have hF : ∀ f ∈ fs, SubD w K D D' Q (vfieldD rec f) (vfieldD rec' f) := fun f hf => subD_opt (H _ _ (h f hf))
  match fs, hF with
  | [f], hF => exact hF f List.mem_cons_self
  | [], _ => exact subD_one (sub_tuple (l := ([] : List Field)) (f := fun _ => .name []) (g := fun _ => .name []) (fun a ha => by cases ha))
  | f :: g :: r, hF =>
    refine subD_one ?_
    rw [List.map_map, List.map_map]
    exact sub_tuple (fun a ha => subD_type (hF a ha))

theorem variantD_same (H : SubTypes w S K D D' Q rec rec') (tag : Tag) {v : Variant} (h : ∀ t ∈ fieldTypes v.fields, S t) :
    SubD w K D D' Q (variantD rec tag v) (variantD rec' tag v) := by
  unfold variantD
  cases v.style with
  | unit => exact subD_one (unit_sub tag _)
  | named => exact structVariant_sub H tag rfl (fieldsSub_refl h)
  | tuple =>
    have hk : ∀ f ∈ v.kept, S f.ty := fun f hf => h _ (List.mem_map.2 ⟨f, hf, rfl⟩)
    simp only [tupleVariantD]
    generalize v.kept = l at hk
    cases l with
    | nil => exact subD_one (unit_sub tag _)
    | cons f fs =>
      have hx := tupleFields_sub H hk
      cases tag with
      | external => exact subD_one (obj_one (subD_type hx))
      | internal t => exact subD_one (obj_one (subD_type hx))
      | adjacent t c => exact subD_one (obj_tag (subD_type hx))
      | untagged => exact hx

theorem variants_sub (H : SubTypes w S K D D' Q rec rec') (tag : Tag) {l l' : List Variant} (h : VariantsSub S K l l') :
    SubD w K D D' Q (((l.filter (fun v => !v.skipDe)).map (variantD rec tag)).flatten)
      (((l'.filter (fun v => !v.skipDe)).map (variantD rec' tag)).flatten) := by
  induction h with
  | nil => exact .nil _
  | same v hS _ ih =>
    simp only [List.filter_cons]
    cases hs : v.skipDe with
    | true => exact ih
    | false => exact subD_append (variantD_same H tag (hS hs)) ih
  | @fields v v' _ _ h1 h2 h3 h4 h5 _ ih =>
    simp only [List.filter_cons]
    rw [← h4]
    cases hs : v.skipDe with
    | true => exact ih
    | false =>
      refine subD_append ?_ ih
      unfold variantD
      rw [h1, h2]
      exact structVariant_sub H tag h3 (h5 hs)
  | new v _ ih =>
    simp only [List.filter_cons]
    cases v.skipDe with
    | true => exact ih
    | false => exact subD_skip _ ih

theorem variantsSub_refl {l : List Variant} (h : ∀ v ∈ l, v.skipDe = false → ∀ t ∈ fieldTypes v.fields, S t) : VariantsSub S K l l := by
  induction l with
  | nil => exact .nil
  | cons v l ih => exact .same v (h v List.mem_cons_self) (ih (fun w hw => h w (List.mem_cons_of_mem _ hw)))

theorem mem_ty? {o : Option Ty} {t : Ty} (h : o = some t) : t ∈ o.toList := by rw [h]; simp

theorem declSub_enum {e : EnumDecl} (h : ∀ t ∈ declTypes (.enum e), S t) : VariantsSub S K e.variants e.variants := by
  refine variantsSub_refl (fun v hv hs t ht => h t ?_)
  refine List.mem_append.2 (.inl (List.mem_flatten.2 ⟨_, List.mem_map.2 ⟨v, List.mem_filter.2 ⟨hv, by simp [hs]⟩, rfl⟩, ht⟩))

theorem decl_sub (H : SubTypes w S K D D' Q rec rec') {d d' : Decl} (h : DeclSub w S K Q d d') :
    SubD w K D D' Q (declD rec d) (declD rec' d') ∧ SubD w K D D' Q (declInlineD rec d) (declInlineD rec' d') := by
  cases h with
  | same _ hS hq hw =>
    cases d with
    | struct s =>
      simp only [declD, declInlineD]
      cases hf : s.from_.ty? with
      | some t =>
        have : S t := hS t (List.mem_append.2 (.inr (mem_ty? hf)))
        exact ⟨H _ _ this, H _ _ this⟩
      | none => exact ⟨structD_same H (fun t ht => hS t (List.mem_append.2 (.inl ht))) hw, subD_one (.ref _ _ hq)⟩
    | enum e =>
      simp only [declD, declInlineD]
      cases hf : e.from_.ty? with
      | some t =>
        have : S t := hS t (List.mem_append.2 (.inr (mem_ty? hf)))
        exact ⟨H _ _ this, H _ _ this⟩
      | none => exact ⟨variants_sub H e.tag (declSub_enum hS), subD_one (.ref _ _ hq)⟩
  | struct s s' h1 h2 h3 h4 h5 h6 h7 h8 h9 h10 h11 h12 =>
    simp only [declD, declInlineD]
    rw [← h7, ← h5, ← h6]
    cases hf : s.from_.ty? with
    | some t =>
      have : S t := h8 t (mem_ty? hf)
      exact ⟨H _ _ this, H _ _ this⟩
    | none => exact ⟨struct_sub H h1 h2 h3 h4 h10 h11 h12, subD_one (.ref _ _ h9)⟩
  | enum e e' h1 h2 h3 h4 h5 h6 h7 =>
    simp only [declD, declInlineD]
    rw [← h3, ← h1, ← h2]
    cases hf : e.from_.ty? with
    | some t =>
      have : S t := h5 t (mem_ty? hf)
      exact ⟨H _ _ this, H _ _ this⟩
    | none =>
      refine ⟨?_, subD_one (.ref _ _ h6)⟩
      simp only [enumD, EnumDecl.kept]
      rw [← h4]
      exact variants_sub H e.tag h7
  | perm e vs hw hp hS hq =>
    simp only [declD, declInlineD]
    cases hf : e.from_.ty? with
    | some t =>
      have : S t := hS t (List.mem_append.2 (.inr (mem_ty? hf)))
      exact ⟨H _ _ this, H _ _ this⟩
    | none =>
      refine ⟨.any hw (fun c hc => ?_), subD_one (.ref _ _ hq)⟩
      obtain ⟨c', h1, h2⟩ := subD_mem (variants_sub H e.tag (declSub_enum (K := K) hS)) c hc
      refine ⟨c', ?_, h2⟩
      simp only [enumD, EnumDecl.kept]
      exact (((hp.filter _).map _).flatten).mem_iff.1 h1

end

end Verif.Ts
