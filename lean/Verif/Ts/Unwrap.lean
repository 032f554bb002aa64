import Verif.Ts.Means
import Verif.Ts.SubProgram
import Verif.Zod.Unwrap
import Verif.Zod.Module

/-!
# Types of programs with and without wrappers (proof helper)

The types meant for a type with wrappers and for the type without them have the same values.
-/

namespace Verif.Ts
open Verif Verif.Js Verif.Schema Verif.Spec Verif.SchemaSpec Verif.Zod

/-- Every value of either type is a value of the other one. -/
def Both (D D' : TsEnv) (Q : Str → Str → Prop) (T U : TsType) : Prop :=
  SubT (fun _ => False) D D' Q T U ∧ SubT (fun _ => False) D' D Q U T

section
variable {D D' : TsEnv} {Q : Str → Str → Prop}

theorem both_word (w : Str) : Both D D' Q (.name [w]) (.name [w]) := ⟨.word w, .word w⟩

theorem both_union {ts us : List TsType} (hl : ts.length = us.length)
    (h : ∀ (i : Nat) t u, ts[i]? = some t → us[i]? = some u → Both D D' Q t u) : Both D D' Q (.union ts) (.union us) := by
  constructor
  · refine .unionLeft _ _ (fun t ht => ?_)
    obtain ⟨i, hi⟩ := List.mem_iff_getElem?.1 ht
    have hlt := (List.getElem?_eq_some_iff.1 hi).1
    have hu : us[i]? = some (us[i]'(hl ▸ hlt)) := List.getElem?_eq_getElem _
    exact .unionRight _ _ _ (List.mem_of_getElem? hu) (h i t _ hi hu).1
  · refine .unionLeft _ _ (fun t ht => ?_)
    obtain ⟨i, hi⟩ := List.mem_iff_getElem?.1 ht
    have hlt := (List.getElem?_eq_some_iff.1 hi).1
    have hu : ts[i]? = some (ts[i]'(hl ▸ hlt)) := List.getElem?_eq_getElem _
    exact .unionRight _ _ _ (List.mem_of_getElem? hu) (h i _ t hu hi).2

theorem both_inter {ts us : List TsType} (hl : ts.length = us.length)
    (h : ∀ (i : Nat) t u, ts[i]? = some t → us[i]? = some u → Both D D' Q t u) : Both D D' Q (.inter ts) (.inter us) := by
  constructor
  · refine .interRight _ _ (fun t ht => ?_)
    obtain ⟨i, hi⟩ := List.mem_iff_getElem?.1 ht
    have hlt := (List.getElem?_eq_some_iff.1 hi).1
    have hu : ts[i]? = some (ts[i]'(hl ▸ hlt)) := List.getElem?_eq_getElem _
    exact .interLeft _ _ _ (List.mem_of_getElem? hu) (h i _ t hu hi).1
  · refine .interRight _ _ (fun t ht => ?_)
    obtain ⟨i, hi⟩ := List.mem_iff_getElem?.1 ht
    have hlt := (List.getElem?_eq_some_iff.1 hi).1
    have hu : us[i]? = some (us[i]'(hl ▸ hlt)) := List.getElem?_eq_getElem _
    exact .interLeft _ _ _ (List.mem_of_getElem? hu) (h i t _ hi hu).2

theorem both_tuple {ts us : List TsType} (hl : ts.length = us.length)
    (h : ∀ (i : Nat) t u, ts[i]? = some t → us[i]? = some u → Both D D' Q t u) : Both D D' Q (.tuple ts) (.tuple us) :=
  ⟨.tuple _ _ hl (fun i t u h1 h2 => (h i t u h1 h2).1), .tuple _ _ hl.symm (fun i t u h1 h2 => (h i u t h2 h1).2)⟩

/-- Properties of the same names. -/
def BothProps (D D' : TsEnv) (Q : Str → Str → Prop) : List (Str × Bool × TsType) → List (Str × Bool × TsType) → Prop :=
  All2 (fun p q => p.1 = q.1 ∧ p.2.1 = q.2.1 ∧ Both D D' Q p.2.2 q.2.2)

theorem both_obj {ps qs : List (Str × Bool × TsType)} (h : BothProps D D' Q ps qs) : Both D D' Q (.obj ps) (.obj qs) := by
  constructor
  · refine sub_obj (fun q hq => .inl ?_)
    obtain ⟨p, hp, e1, e2, e3⟩ := All2.mem_right h hq
    exact ⟨p, hp, e1, e2, e3.1⟩
  · refine sub_obj (fun q hq => .inl ?_)
    obtain ⟨p, hp, e1, e2, e3⟩ := All2.mem_left h hq
    exact ⟨p, hp, e1.symm, e2.symm, e3.2⟩

theorem both_app1 {p : List Str} {t u : TsType} (h : Both D D' Q t u) : Both D D' Q (.app p [t]) (.app p [u]) :=
  ⟨sub_app1 h.1, sub_app1 h.2⟩

theorem both_app2 {p : List Str} {t u t' u' : TsType} (h : Both D D' Q t u) (h' : Both D D' Q t' u') :
    Both D D' Q (.app p [t, t']) (.app p [u, u']) := ⟨sub_app2 h.1 h'.1, sub_app2 h.2 h'.2⟩

theorem both_pair {t u t' u' : TsType} (h : Both D D' Q t u) (h' : Both D D' Q t' u') :
    Both D D' Q (.union [t, t']) (.union [u, u']) := by
  refine both_union rfl (fun i a b ha hb => ?_)
  match i, ha, hb with
  | 0, ha, hb => cases ha; cases hb; exact h
  | 1, ha, hb => cases ha; cases hb; exact h'
  | n + 2, ha, _ => simp at ha

theorem both_orUndefined {b : Bool} {t u : TsType} (h : Both D D' Q t u) :
    Both D D' Q (orUndefined b t) (orUndefined b u) := by
  cases b with
  | false => exact h
  | true => exact both_pair h (both_word _)

/-- The types meant for fields without and with wrappers. -/
abbrev BothFields (D D' : TsEnv) (Q : Str → Str → Prop) (Ts Us : List TsType) : Prop := All2 (Both D D' Q) Ts Us

theorem both_elems {Ts Us : List TsType} (h : BothFields D D' Q Ts Us) : ∀ (fs : List Field),
    All2 (Both D D' Q) (elemsT fs Ts) (elemsT (fs.map (Field.mapTy strip)) Us) := by
  induction h with
  | nil => intro fs; cases fs <;> exact .nil
  | cons h1 _ ih =>
    intro fs
    cases fs with
    | nil => exact .nil
    | cons f fs => exact .cons (both_orUndefined h1) (ih fs)

theorem both_props {Ts Us : List TsType} (h : BothFields D D' Q Ts Us) : ∀ (fs : List Field),
    BothProps D D' Q (propsT fs Ts) (propsT (fs.map (Field.mapTy strip)) Us) := by
  induction h with
  | nil => intro fs; cases fs <;> exact .nil
  | cons h1 _ ih =>
    intro fs
    cases fs with
    | nil => exact .nil
    | cons f fs => exact .cons ⟨rfl, rfl, both_orUndefined h1⟩ (ih fs)

theorem all2_index {α β : Type} {R : α → β → Prop} {l : List α} {r : List β} (h : All2 R l r) :
    l.length = r.length ∧ ∀ (i : Nat) a b, l[i]? = some a → r[i]? = some b → R a b := by
  induction h with
  | nil => exact ⟨rfl, fun i a b h => by simp at h⟩
  | cons h1 _ ih =>
    refine ⟨by simp [ih.1], fun i a b ha hb => ?_⟩
    cases i with
    | zero => cases ha; cases hb; exact h1
    | succ i => exact ih.2 i a b ha hb

theorem index_all2 {α β : Type} {R : α → β → Prop} : ∀ {l : List α} {r : List β}, l.length = r.length →
    (∀ (i : Nat) a b, l[i]? = some a → r[i]? = some b → R a b) → All2 R l r
  | [], [], _, _ => .nil
  | [], _ :: _, h, _ => by cases h
  | _ :: _, [], h, _ => by cases h
  | a :: l, b :: r, hl, h => .cons (h 0 a b rfl rfl) (index_all2 (Nat.succ.inj hl) (fun i x y hx hy => h (i + 1) x y hx hy))

theorem both_payload {Ts Us : List TsType} (h : BothFields D D' Q Ts Us) (fs : List Field) :
    Both D D' Q (payloadT fs Ts) (payloadT (fs.map (Field.mapTy strip)) Us) := by
  have he := both_elems h fs
  unfold payloadT
  generalize elemsT fs Ts = l at he
  generalize elemsT (fs.map (Field.mapTy strip)) Us = r at he
  cases he with
  | nil => exact both_tuple rfl (fun i t u h => by simp at h)
  | cons h1 h2 =>
    cases h2 with
    | nil => exact h1
    | cons h2 h3 =>
      have := all2_index (All2.cons h1 (All2.cons h2 h3))
      exact both_tuple this.1 this.2

theorem both_unit (tag : Tag) (name : Str) : Both D D' Q (unitT tag name) (unitT tag name) := by
  have h1 : ∀ t, Both D D' Q (.obj [(t, false, .str name)]) (.obj [(t, false, .str name)]) :=
    fun t => both_obj (.cons ⟨rfl, rfl, .str _, .str _⟩ .nil)
  cases tag with
  | external => exact ⟨.str _, .str _⟩
  | internal t => exact h1 t
  | adjacent t c => exact h1 t
  | untagged => exact both_word _

theorem both_variant {Ts Us : List TsType} (h : BothFields D D' Q Ts Us) (tag : Tag) (v : Variant) (fs : List Field) :
    Both D D' Q (variantT tag v fs Ts) (variantT tag (Variant.mapTy strip v) (fs.map (Field.mapTy strip)) Us) := by
  have hp := both_payload h fs
  have ho := both_obj (both_props h fs)
  have hs : Both D D' Q (.str v.name) (.str v.name) := ⟨.str _, .str _⟩
  unfold variantT
  have e : (Variant.mapTy strip v).style = v.style := rfl
  have e' : (Variant.mapTy strip v).name = v.name := rfl
  rw [e, e']
  cases v.style with
  | unit => exact both_unit tag _
  | tuple =>
    cases fs with
    | nil => exact both_unit tag _
    | cons f fs =>
      cases tag with
      | external => exact both_obj (.cons ⟨rfl, rfl, hp⟩ .nil)
      | internal t => exact both_obj (.cons ⟨rfl, rfl, hp⟩ .nil)
      | adjacent t c => exact both_obj (.cons ⟨rfl, rfl, hs⟩ (.cons ⟨rfl, rfl, hp⟩ .nil))
      | untagged => exact hp
  | named =>
    cases tag with
    | external => exact both_obj (.cons ⟨rfl, rfl, ho⟩ .nil)
    | internal t => exact both_obj (.cons ⟨rfl, rfl, hs⟩ (both_props h fs))
    | adjacent t c => exact both_obj (.cons ⟨rfl, rfl, hs⟩ (.cons ⟨rfl, rfl, ho⟩ .nil))
    | untagged => exact ho

theorem noFrom_bare {d : Decl} : NoFrom (Decl.mapTy strip d) ↔ NoFrom d := by
  cases d with
  | struct s => simp [NoFrom, Decl.mapTy, from_mapTy]
  | enum e => simp [NoFrom, Decl.mapTy, from_mapTy]

theorem bare_struct {P : Program} {i : Nat} {s s' : StructDecl} (h : P[i]? = some (.struct s))
    (h' : (bare P)[i]? = some (.struct s')) : s' = StructDecl.mapTy strip s := by
  rw [bare_get h] at h'
  cases h'
  rfl

theorem bare_enum {P : Program} {i : Nat} {e e' : EnumDecl} (h : P[i]? = some (.enum e))
    (h' : (bare P)[i]? = some (.enum e')) : e' = EnumDecl.mapTy strip e := by
  rw [bare_get h] at h'
  cases h'
  rfl

theorem bare_struct_enum {P : Program} {i : Nat} {s : StructDecl} {e : EnumDecl} (h : P[i]? = some (.struct s))
    (h' : (bare P)[i]? = some (.enum e)) : False := by rw [bare_get h] at h'; cases h'

theorem bare_enum_struct {P : Program} {i : Nat} {s : StructDecl} {e : EnumDecl} (h : P[i]? = some (.enum e))
    (h' : (bare P)[i]? = some (.struct s)) : False := by rw [bare_get h] at h'; cases h'

theorem kept_bare (s : StructDecl) : keptFields (StructDecl.mapTy strip s).fields = (keptFields s.fields).map (Field.mapTy strip) :=
  filter_mapTy strip

theorem flat_bare (b : Bool) (fs : List Field) : (fs.map (Field.mapTy strip)).filter (fun f => f.flatten == b) =
    (fs.filter (fun f => f.flatten == b)).map (Field.mapTy strip) := by
  induction fs with
  | nil => rfl
  | cons x r ih =>
    simp only [List.map_cons, List.filter_cons, ih]
    cases h : (x.flatten == b) <;> simp [Field.mapTy, h]

variable {P : Program}

/-- What is meant for each of the fields has the same values. -/
theorem both_fields {fs : List Field} {Ts Us : List TsType} (hl : fs.length = Ts.length) (hl' : (fs.map (Field.mapTy strip)).length = Us.length)
    (ih : ∀ (j : Nat) f T, fs[j]? = some f → Ts[j]? = some T → ∀ U, Means (bare P) true (strip f.ty) U → Both D D' Q T U)
    (h : ∀ (j : Nat) f U, (fs.map (Field.mapTy strip))[j]? = some f → Us[j]? = some U → Means (bare P) true f.ty U) :
    BothFields D D' Q Ts Us := by
  rw [List.length_map] at hl'
  refine index_all2 (hl.symm.trans hl') (fun i T U hT hU => ?_)
  have hlt := (List.getElem?_eq_some_iff.1 hT).1
  have hf : fs[i]? = some (fs[i]'(hl ▸ hlt)) := List.getElem?_eq_getElem _
  refine ih i _ T hf hT U ?_
  exact h i (Field.mapTy strip fs[i]) U (by rw [List.getElem?_map, hf]; rfl) hU

/-- Where a reference may take the place of what is written out. -/
theorem both_named {i : Nat} {d : Decl} {T : TsType}
    (hD' : ∀ i d, P[i]? = some d → ∃ U, D' d.ns d.name = some U ∧ Means (bare P) false (.named i) U)
    (hd : P[i]? = some d) (h : ∀ U, Means (bare P) false (.named i) U → Both D D' Q T U) (hnf : NoFrom d) :
    ∀ b U, Means (bare P) b (.named i) U → Both D D' Q T U := by
  intro b U hU
  cases b with
  | false => exact h U hU
  | true =>
    cases hU with
    | ref _ d' h1 h2 =>
      rw [bare_get hd] at h1
      cases h1
      obtain ⟨V, hV, hm⟩ := hD' i d hd
      rw [(decl_mapTy_names strip d).1, (decl_mapTy_names strip d).2]
      exact ⟨.unfoldRight _ _ _ V hV (h V hm).1, .unfoldLeft _ _ V _ hV (h V hm).2⟩
    | structFrom _ _ s t _ h1 h2 _ =>
      rw [bare_get hd] at h1
      injection h1 with h1
      have := noFrom_bare.2 hnf
      rw [h1] at this
      unfold NoFrom at this
      rw [this] at h2
      cases h2
    | enumFrom _ _ s t _ h1 h2 _ =>
      rw [bare_get hd] at h1
      injection h1 with h1
      have := noFrom_bare.2 hnf
      rw [h1] at this
      unfold NoFrom at this
      rw [this] at h2
      cases h2

theorem means_both (hD' : ∀ i d, P[i]? = some d → ∃ U, D' d.ns d.name = some U ∧ Means (bare P) false (.named i) U)
    (hQ : ∀ d ∈ P, Q d.ns d.name) {b : Bool} {t : Ty} {T : TsType} (h : Means P b t T) :
    ∀ b' U, (b = true → b' = true) → Means (bare P) b' (strip t) U → Both D D' Q T U := by
  induction h with
  | prim b p =>
    intro b' U _ hU
    rw [strip] at hU
    cases hU
    cases p <;> exact both_word _
  | wrap b w t T _ ih =>
    intro b' U _ hU
    rw [strip] at hU
    exact ih b' U (fun h => by cases h) hU
  | option b t T _ ih =>
    intro b' U _ hU
    rw [strip] at hU
    cases hU with
    | option _ _ U hU => exact both_pair (ih false U id hU) (both_word _)
  | vec b t T _ ih =>
    intro b' U _ hU
    rw [strip] at hU
    cases hU with
    | vec _ _ U hU => exact both_app1 (ih false U id hU)
  | array b n t T _ ih =>
    intro b' U _ hU
    rw [strip] at hU
    cases hU with
    | array _ _ _ U hU => exact both_app1 (ih false U id hU)
  | hashSet b t T _ ih =>
    intro b' U _ hU
    rw [strip] at hU
    cases hU with
    | hashSet _ _ U hU => exact both_app1 (ih false U id hU)
  | btreeSet b t T _ ih =>
    intro b' U _ hU
    rw [strip] at hU
    cases hU with
    | btreeSet _ _ U hU => exact both_app1 (ih false U id hU)
  | hashMap b k v K V _ _ ihk ihv =>
    intro b' U _ hU
    rw [strip] at hU
    cases hU with
    | hashMap _ _ _ K' V' hK hV => exact both_app2 (ihk false K' id hK) (ihv false V' id hV)
  | btreeMap b k v K V _ _ ihk ihv =>
    intro b' U _ hU
    rw [strip] at hU
    cases hU with
    | btreeMap _ _ _ K' V' hK hV => exact both_app2 (ihk false K' id hK) (ihv false V' id hV)
  | tuple b ts Ts hl _ ih =>
    intro b' U _ hU
    rw [strip_tuple] at hU
    cases hU with
    | tuple _ _ Us hl' hU =>
      rw [List.length_map] at hl'
      refine both_tuple (hl.symm.trans hl') (fun i T U hT hu => ?_)
      have hlt := (List.getElem?_eq_some_iff.1 hT).1
      have hf : ts[i]? = some (ts[i]'(hl ▸ hlt)) := List.getElem?_eq_getElem _
      exact ih i _ T hf hT false U id (hU i _ U (by rw [List.getElem?_map, hf]; rfl) hu)
  | result b t e T E _ _ iht ihe =>
    intro b' U _ hU
    rw [strip] at hU
    cases hU with
    | result _ _ _ T' E' hT hE =>
      exact both_pair (both_obj (.cons ⟨rfl, rfl, iht false T' id hT⟩ .nil)) (both_obj (.cons ⟨rfl, rfl, ihe false E' id hE⟩ .nil))
  | ref i d hd hn =>
    intro b' U hb hU
    rw [strip] at hU
    cases hb rfl
    cases hU with
    | ref _ d' h1 h2 =>
      rw [bare_get hd] at h1
      cases h1
      rw [(decl_mapTy_names strip d).1, (decl_mapTy_names strip d).2]
      have := hQ d (List.mem_of_getElem? hd)
      exact ⟨.ref _ _ this, .ref _ _ this⟩
    | structFrom _ _ s t _ h1 h2 _ =>
      rw [bare_get hd] at h1
      injection h1 with h1
      have := noFrom_bare.2 hn
      rw [h1] at this
      unfold NoFrom at this
      rw [this] at h2
      cases h2
    | enumFrom _ _ s t _ h1 h2 _ =>
      rw [bare_get hd] at h1
      injection h1 with h1
      have := noFrom_bare.2 hn
      rw [h1] at this
      unfold NoFrom at this
      rw [this] at h2
      cases h2
  | structFrom b i s t T hs hf _ ih =>
    intro b' U _ hU
    rw [strip] at hU
    have hne : ∀ s', (bare P)[i]? = some (.struct s') → s'.from_.ty? = some (strip t) := by
      intro s' h
      rw [bare_struct hs h]
      show (From.mapTy strip s.from_).ty? = _
      rw [from_mapTy, hf]
      rfl
    cases hU with
    | ref _ d' h1 h2 =>
      rw [bare_get hs] at h1
      cases h1
      have := noFrom_bare.1 h2
      simp only [NoFrom] at this
      rw [hf] at this
      cases this
    | structFrom _ _ s' t' _ h1 h2 h3 =>
      rw [hne s' h1] at h2
      cases h2
      exact ih true U id h3
    | enumFrom _ _ _ _ _ h1 _ _ => exact (bare_struct_enum hs h1).elim
    | newtype _ s' _ _ h1 h2 _ _ _ => rw [hne s' h1] at h2; cases h2
    | tupleStruct _ s' _ h1 h2 _ _ _ _ _ => rw [hne s' h1] at h2; cases h2
    | namedStruct _ s' _ _ h1 h2 _ _ _ _ _ _ => rw [hne s' h1] at h2; cases h2
    | enum _ _ _ h1 _ _ _ _ => exact (bare_struct_enum hs h1).elim
  | enumFrom b i e t T he hf _ ih =>
    intro b' U hb hU
    rw [strip] at hU
    have hne : ∀ e', (bare P)[i]? = some (.enum e') → e'.from_.ty? = some (strip t) := by
      intro s' h
      rw [bare_enum he h]
      show (From.mapTy strip e.from_).ty? = _
      rw [from_mapTy, hf]
      rfl
    cases hU with
    | ref _ d' h1 h2 =>
      rw [bare_get he] at h1
      cases h1
      have := noFrom_bare.1 h2
      simp only [NoFrom] at this
      rw [hf] at this
      cases this
    | structFrom _ _ _ _ _ h1 _ _ => exact (bare_enum_struct he h1).elim
    | enumFrom _ _ e' t' _ h1 h2 h3 =>
      rw [hne e' h1] at h2
      cases h2
      exact ih b' U hb h3
    | newtype _ _ _ _ h1 _ _ _ _ => exact (bare_enum_struct he h1).elim
    | tupleStruct _ _ _ h1 _ _ _ _ _ _ => exact (bare_enum_struct he h1).elim
    | namedStruct _ _ _ _ h1 _ _ _ _ _ _ _ => exact (bare_enum_struct he h1).elim
    | enum _ e' _ h1 h2 _ _ _ => rw [hne e' h1] at h2; cases h2
  | newtype i s f T hs hf hst hk _ ih =>
    intro b' U _ hU
    rw [strip] at hU
    refine both_named hD' hs (fun U hU => ?_) hf b' U hU
    cases hU with
    | structFrom _ _ s' t' _ h1 h2 _ =>
      rw [bare_struct hs h1] at h2
      have h2 : (From.mapTy strip s.from_).ty? = _ := h2
      rw [from_mapTy, hf] at h2
      cases h2
    | enumFrom _ _ _ _ _ h1 _ _ => exact (bare_struct_enum hs h1).elim
    | newtype _ s' f' T' h1 h2 _ h4 h5 =>
      rw [bare_struct hs h1, kept_bare, hk] at h4
      cases h4
      exact both_orUndefined (ih true T' id h5)
    | tupleStruct _ s' Us h1 _ _ _ h5 _ _ =>
      rw [bare_struct hs h1, kept_bare, hk] at h5
      simp at h5
    | namedStruct _ s' _ _ h1 _ h3 h4 _ _ _ _ =>
      rw [bare_struct hs h1] at h3 h4
      have h3 : s.transparent = false := h3
      have h4 : s.style = .named := h4
      rw [h3, h4] at hst
      rcases hst with h | h <;> cases h
    | enum _ _ _ h1 _ _ _ _ => exact (bare_struct_enum hs h1).elim
  | tupleStruct i s Ts hs hf htr hst hk hl _ ih =>
    intro b' U _ hU
    rw [strip] at hU
    refine both_named hD' hs (fun U hU => ?_) hf b' U hU
    cases hU with
    | structFrom _ _ s' t' _ h1 h2 _ =>
      rw [bare_struct hs h1] at h2
      have h2 : (From.mapTy strip s.from_).ty? = _ := h2
      rw [from_mapTy, hf] at h2
      cases h2
    | enumFrom _ _ _ _ _ h1 _ _ => exact (bare_struct_enum hs h1).elim
    | newtype _ s' f' T' h1 h2 _ h4 h5 =>
      rw [bare_struct hs h1, kept_bare] at h4
      have := congrArg List.length h4
      simp at this
      omega
    | tupleStruct _ s' Us h1 _ _ _ h5 h6 h7 =>
      rw [bare_struct hs h1, kept_bare] at h6 h7 ⊢
      have := all2_index (both_elems (both_fields hl h6 (fun j f T hj hT U hU => ih j f T hj hT true U id hU) h7) (keptFields s.fields))
      exact both_tuple this.1 this.2
    | namedStruct _ s' _ _ h1 _ h3 h4 _ _ _ _ =>
      rw [bare_struct hs h1] at h4
      have h4 : s.style = .named := h4
      rw [h4] at hst
      cases hst
    | enum _ _ _ h1 _ _ _ _ => exact (bare_struct_enum hs h1).elim
  | namedStruct i s Ts Vs hs hf htr hst hl _ hlv _ ih ihv =>
    intro b' U _ hU
    rw [strip] at hU
    refine both_named hD' hs (fun U hU => ?_) hf b' U hU
    cases hU with
    | structFrom _ _ s' t' _ h1 h2 _ =>
      rw [bare_struct hs h1] at h2
      have h2 : (From.mapTy strip s.from_).ty? = _ := h2
      rw [from_mapTy, hf] at h2
      cases h2
    | enumFrom _ _ _ _ _ h1 _ _ => exact (bare_struct_enum hs h1).elim
    | newtype _ s' f' T' h1 h2 h3 h4 h5 =>
      rw [bare_struct hs h1] at h3
      have h3 : s.transparent = true ∨ s.style = .tuple := h3
      rw [htr, hst] at h3
      rcases h3 with h | h <;> cases h
    | tupleStruct _ s' Us h1 _ _ h4 h5 h6 h7 =>
      rw [bare_struct hs h1] at h4
      have h4 : s.style = .tuple := h4
      rw [h4] at hst
      cases hst
    | namedStruct _ s' Us Ws h1 _ h3 h4 h5 h6 h7 h8 =>
      have e1 : (keptFields s'.fields).filter (fun f => !f.flatten) =
          ((keptFields s.fields).filter (fun f => !f.flatten)).map (Field.mapTy strip) := by
        rw [bare_struct hs h1, kept_bare]
        have := flat_bare false (keptFields s.fields)
        simpa using this
      have e2 : (keptFields s'.fields).filter (fun f => f.flatten) =
          ((keptFields s.fields).filter (fun f => f.flatten)).map (Field.mapTy strip) := by
        rw [bare_struct hs h1, kept_bare]
        have := flat_bare true (keptFields s.fields)
        simpa using this
      rw [e1] at h5 h6 ⊢
      rw [e2] at h7 h8 ⊢
      have hb1 := both_props (both_fields hl h5 (fun j f T hj hT U hU => ih j f T hj hT true U id hU) h6)
        ((keptFields s.fields).filter (fun f => !f.flatten))
      have hb2 := both_elems (both_fields hlv h7 (fun j f T hj hT U hU => ihv j f T hj hT true U id hU) h8)
        ((keptFields s.fields).filter (fun f => f.flatten))
      have := all2_index (All2.cons (both_obj hb1) hb2)
      exact both_inter this.1 this.2
    | enum _ _ _ h1 _ _ _ _ => exact (bare_struct_enum hs h1).elim
  | enum i e Tss he hf hl hlk _ ih =>
    intro b' U _ hU
    rw [strip] at hU
    refine both_named hD' he (fun U hU => ?_) hf b' U hU
    cases hU with
    | structFrom _ _ _ _ _ h1 _ _ => exact (bare_enum_struct he h1).elim
    | enumFrom _ _ e' t' _ h1 h2 h3 =>
      rw [bare_enum he h1] at h2
      have h2 : (From.mapTy strip e.from_).ty? = _ := h2
      rw [from_mapTy, hf] at h2
      cases h2
    | newtype _ _ _ _ h1 _ _ _ _ => exact (bare_enum_struct he h1).elim
    | tupleStruct _ _ _ h1 _ _ _ _ _ _ => exact (bare_enum_struct he h1).elim
    | namedStruct _ _ _ _ h1 _ _ _ _ _ _ _ => exact (bare_enum_struct he h1).elim
    | enum _ e' Uss h1 h2 h3 h4 h5 =>
      have ek : e'.kept = e.kept.map (Variant.mapTy strip) := by rw [bare_enum he h1]; exact ekept_mapTy strip e
      have et : e'.tag = e.tag := by rw [bare_enum he h1]; rfl
      rw [ek] at h3 h4 h5 ⊢
      rw [et]
      rw [List.length_map] at h3
      refine both_union (by simp; omega) (fun j T U hT hU => ?_)
      rw [List.getElem?_zipWith] at hT hU
      rw [List.getElem?_map] at hU
      cases hv : e.kept[j]? with
      | none => rw [hv] at hT; cases hT
      | some v =>
        cases hTs : Tss[j]? with
        | none => rw [hv, hTs] at hT; cases hT
        | some Ts =>
          cases hUs : Uss[j]? with
          | none => rw [hv, hUs] at hU; cases hU
          | some Us =>
            rw [hv, hTs] at hT
            rw [hv, hUs] at hU
            cases hT
            cases hU
            have hm : (e.kept.map (Variant.mapTy strip))[j]? = some (Variant.mapTy strip v) := by rw [List.getElem?_map, hv]; rfl
            have hkf : keptFields (Variant.mapTy strip v).fields = (keptFields v.fields).map (Field.mapTy strip) := filter_mapTy strip
            have h4' := h4 j _ Us hm hUs
            have h5' := h5 j _ Us hm hUs
            rw [hkf] at h4' h5'
            show Both D D' Q (variantT e.tag v (keptFields v.fields) Ts)
              (variantT e.tag (Variant.mapTy strip v) (keptFields (Variant.mapTy strip v).fields) Us)
            rw [hkf]
            exact both_variant (both_fields (hlk j v Ts hv hTs) h4' (fun k f T hk hT U hU => ih j v Ts hv hTs k f T hk hT true U id hU) h5') e.tag v _

end

/-! ## Environments of what is meant -/

/-- Replacing declared types by types with the same values. -/
theorem same_env {D E : TsEnv} (h : ∀ ns name T, D ns name = some T → ∃ U, E ns name = some U ∧ SameValues T U) {len : Bool}
    {T : TsType} {v : JsVal} (hv : Inhabits D len T v) : Inhabits E len T v := by
  induction hv with
  | string s => exact .string s
  | badString n => exact .badString n
  | number x => exact .number x
  | boolean b => exact .boolean b
  | null => exact .null
  | undefined => exact .undefined
  | literal s => exact .literal s
  | ref ns name t v hd _ ih =>
    obtain ⟨U, hU, hs⟩ := h ns name t hd
    exact .ref ns name U v hU ((hs E len v).1 ih)
  | array t l _ ih => exact .array t l ih
  | set t l _ ih => exact .set t l ih
  | map t u l _ _ ih1 ih2 => exact .map t u l ih1 ih2
  | tuple ts l hl _ ih => exact .tuple ts l hl ih
  | obj ps kvs _ h2 _ ih1 ih3 => exact .obj ps kvs ih1 h2 ih3
  | union ts t v hm _ ih => exact .union ts t v hm ih
  | inter ts v _ ih => exact .inter ts v ih

open Classical in
/-- The types meant for the declarations of `P`; other names mean what they mean in `D`. -/
noncomputable def meantEnv (P : Program) (D : TsEnv) : TsEnv := fun ns name =>
  if h : ∃ U, ∃ (i : Nat) (d : Decl), P[i]? = some d ∧ d.ns = ns ∧ d.name = name ∧ Means P false (.named i) U ∧
    ∃ T, D ns name = some T ∧ SameValues T U
  then some h.choose else D ns name

/-- Every declared type has the values of what is meant. -/
def MeantModule (P : Program) (D : TsEnv) : Prop :=
  ∀ (i : Nat) (d : Decl), P[i]? = some d → ∃ T, D d.ns d.name = some T ∧ ∃ U, Means P false (.named i) U ∧ SameValues T U

theorem distinct_index {P : Program} (hd : DistinctDecls P) {i j : Nat} {d e : Decl} (hi : P[i]? = some d) (hj : P[j]? = some e)
    (h1 : d.ns = e.ns) (h2 : d.name = e.name) : i = j := by
  unfold DistinctDecls at hd
  have hi' : (P.map (fun d => (d.ns, d.name)))[i]? = some (d.ns, d.name) := by rw [List.getElem?_map, hi]; rfl
  have hj' : (P.map (fun d => (d.ns, d.name)))[j]? = some (d.ns, d.name) := by rw [List.getElem?_map, hj, h1, h2]; rfl
  have hlt := (List.getElem?_eq_some_iff.1 hi').1
  exact (List.getElem?_inj hlt hd).1 (hi'.trans hj'.symm)

theorem meantEnv_get {P : Program} {D : TsEnv} (hd : DistinctDecls P) (hm : MeantModule P D) {i : Nat} {d : Decl} (hi : P[i]? = some d) :
    ∃ U, meantEnv P D d.ns d.name = some U ∧ Means P false (.named i) U := by
  obtain ⟨T, hT, U, hU, hs⟩ := hm i d hi
  have hex : ∃ U, ∃ (j : Nat) (e : Decl), P[j]? = some e ∧ e.ns = d.ns ∧ e.name = d.name ∧ Means P false (.named j) U ∧
    ∃ T, D d.ns d.name = some T ∧ SameValues T U := ⟨U, i, d, hi, rfl, rfl, hU, T, hT, hs⟩
  refine ⟨hex.choose, by unfold meantEnv; rw [dif_pos hex], ?_⟩
  obtain ⟨j, e, hj, e1, e2, hme, _⟩ := hex.choose_spec
  have := distinct_index hd hi hj e1.symm e2.symm
  subst this
  exact hme

theorem meantEnv_same (P : Program) (D : TsEnv) (ns name : Str) (T : TsType) :
    (D ns name = some T → ∃ U, meantEnv P D ns name = some U ∧ SameValues T U) ∧
    (meantEnv P D ns name = some T → ∃ U, D ns name = some U ∧ SameValues T U) := by
  unfold meantEnv
  split
  · rename_i hex
    obtain ⟨i, d, _, _, _, _, T', hT', hs⟩ := hex.choose_spec
    constructor
    · intro hT
      rw [hT] at hT'
      cases hT'
      exact ⟨_, rfl, hs⟩
    · intro hT
      cases hT
      exact ⟨T', hT', fun D l v => (hs D l v).symm⟩
  · exact ⟨fun h => ⟨T, h, fun _ _ _ => Iff.rfl⟩, fun h => ⟨T, h, fun _ _ _ => Iff.rfl⟩⟩

theorem meantEnv_values (P : Program) (D : TsEnv) (len : Bool) (T : TsType) (v : JsVal) :
    Inhabits (meantEnv P D) len T v ↔ Inhabits D len T v :=
  ⟨same_env (fun ns name T => (meantEnv_same P D ns name T).2), same_env (fun ns name T => (meantEnv_same P D ns name T).1)⟩

/-- What is meant for a type with wrappers and for the type without them has the same values. -/
theorem bare_values {P : Program} {D D' : TsEnv} (hd : DistinctDecls P) (hd' : DistinctDecls (bare P)) (hm : MeantModule P D)
    (hm' : MeantModule (bare P) D') {b b' : Bool} (hb : b = true → b' = true) {t : Ty} {T T' : TsType} (h : Means P b t T)
    (h' : Means (bare P) b' (strip t) T') (len : Bool) (v : JsVal) : Inhabits D len T v ↔ Inhabits D' len T' v := by
  have hD' : ∀ i d, P[i]? = some d → ∃ U, meantEnv (bare P) D' d.ns d.name = some U ∧ Means (bare P) false (.named i) U := by
    intro i d hi
    have := meantEnv_get hd' hm' (bare_get hi)
    rwa [(decl_mapTy_names strip d).1, (decl_mapTy_names strip d).2] at this
  have hQ : ∀ d ∈ P, Names P d.ns d.name := fun d hd => ⟨d, hd, rfl, rfl⟩
  have key : ∀ ns name, Names P ns name → ∃ T U, meantEnv P D ns name = some T ∧ meantEnv (bare P) D' ns name = some U ∧
      Both (meantEnv P D) (meantEnv (bare P) D') (Names P) T U := by
    rintro ns name ⟨d, hdm, rfl, rfl⟩
    obtain ⟨i, hi⟩ := List.mem_iff_getElem?.1 hdm
    obtain ⟨T, hT, hMT⟩ := meantEnv_get hd hm hi
    obtain ⟨U, hU, hMU⟩ := hD' i d hi
    exact ⟨T, U, hT, hU, means_both hD' hQ hMT false U id (by rw [strip]; exact hMU)⟩
  have hL : LinkedT (fun _ => False) (meantEnv P D) (meantEnv (bare P) D') (Names P) := by
    intro ns name hq t ht
    obtain ⟨T, U, hT, hU, hB⟩ := key ns name hq
    rw [hT] at ht
    cases ht
    exact ⟨U, hU, hB.1⟩
  have hL' : LinkedT (fun _ => False) (meantEnv (bare P) D') (meantEnv P D) (Names P) := by
    intro ns name hq t ht
    obtain ⟨T, U, hT, hU, hB⟩ := key ns name hq
    rw [hU] at ht
    cases ht
    exact ⟨T, hT, hB.2⟩
  have hB := means_both (D := meantEnv P D) hD' hQ h b' T' hb h'
  rw [← meantEnv_values P D, ← meantEnv_values (bare P) D']
  exact ⟨fun hv => sub_values hL hv (lacks_nothing v) _ hB.1, fun hv => sub_values hL' hv (lacks_nothing v) _ hB.2⟩

end Verif.Ts
