import Verif.Ts.SubDecl

/-!
# The types of a program that has grown: whole programs
-/

namespace Verif.Ts
open Verif Verif.Js Verif.Schema Verif.Spec Verif.SchemaSpec Verif.Zod

/-- The declarations of the two programs, as far as `P₀` has them. -/
def ProgramSub (w : Prop) (P₀ : Program) (K : Str → Prop) (Q : Str → Str → Prop) (P P' : Program) : Prop :=
  ∀ i, i < P₀.length → ∃ d d', P[i]? = some d ∧ P'[i]? = some d' ∧ DeclSub w (InScope P₀) K Q d d'

section
variable {w : Prop} {K : Str → Prop} {D D' : TsEnv} {Q : Str → Str → Prop} {P₀ P P' : Program} {rec rec' : Method → Ty → Dnf}

theorem tBody_sub (hP : ProgramSub w P₀ K Q P P') (H : SubTypes w (InScope P₀) K D D' Q rec rec') :
    SubTypes w (InScope P₀) K D D' Q (tBody rec P) (tBody rec' P') := by
  intro m t ht
  cases ht with
  | @named i hi =>
    obtain ⟨d, d', h1, h2, h3⟩ := hP i hi
    rw [tBody_named P m i h1, tBody_named P' m i h2]
    have := decl_sub H h3
    cases m with
    | typeDef => exact this.1
    | inline => exact this.2
    | _ => exact .nil _
  | prim p =>
    cases m with
    | typeDef => exact subD_one (.word _)
    | inline => exact H _ _ (.prim p)
    | _ => exact .nil _
  | wrap w h =>
    cases m with
    | typeDef => exact H _ _ h
    | inline => exact H _ _ (.wrap w h)
    | _ => exact .nil _
  | option h =>
    cases m with
    | typeDef => exact subD_one (subD_type (subD_append (H _ _ h) subD_refl_undef))
    | inline => exact H _ _ (.option h)
    | _ => exact .nil _
  | vec h =>
    cases m with
    | typeDef => exact subD_one (sub_app1 (subD_type (H _ _ h)))
    | inline => exact H _ _ (.vec h)
    | _ => exact .nil _
  | array n h =>
    cases m with
    | typeDef => exact H _ _ (.vec h)
    | inline => exact H _ _ (.array n h)
    | _ => exact .nil _
  | hashSet h =>
    cases m with
    | typeDef => exact subD_one (sub_app1 (subD_type (H _ _ h)))
    | inline => exact H _ _ (.hashSet h)
    | _ => exact .nil _
  | btreeSet h =>
    cases m with
    | typeDef => exact H _ _ (.hashSet h)
    | inline => exact H _ _ (.btreeSet h)
    | _ => exact .nil _
  | hashMap h h' =>
    cases m with
    | typeDef => exact subD_one (sub_app2 (subD_type (H _ _ h)) (subD_type (H _ _ h')))
    | inline => exact H _ _ (.hashMap h h')
    | _ => exact .nil _
  | btreeMap h h' =>
    cases m with
    | typeDef => exact H _ _ (.hashMap h h')
    | inline => exact H _ _ (.btreeMap h h')
    | _ => exact .nil _
  | @tuple ts h =>
    cases m with
    | typeDef =>
      refine subD_one ?_
      rw [List.map_map, List.map_map]
      exact sub_tuple (fun a ha => subD_type (H _ _ (h a ha)))
    | inline => exact H _ _ (.tuple h)
    | _ => exact .nil _
  | result h h' =>
    cases m with
    | typeDef =>
      exact subD_append (subD_one (obj_one (subD_type (H _ _ h)))) (subD_one (obj_one (subD_type (H _ _ h'))))
    | inline => exact H _ _ (.result h h')
    | _ => exact .nil _

theorem dOf_sub (hP : ProgramSub w P₀ K Q P P') (n : Nat) : SubTypes w (InScope P₀) K D D' Q (dOf P n) (dOf P' n) := by
  induction n with
  | zero => intro m t _; exact .nil _
  | succ n ih => exact tBody_sub hP ih

theorem read_sub (hP : ProgramSub w P₀ K Q P P') (hg : GoodNames P) (hgt : GoodTypeNames P) (hw : WellStyled P) (hg' : GoodNames P')
    (hgt' : GoodTypeNames P') (hw' : WellStyled P') {m : Method} (hm : isT m) {t : Ty} (ht : InScope P₀ t) {s s' : Str}
    (h : Returns P m t s) (h' : Returns P' m t s') {T T' : TsType} (hT : readType s = some T) (hT' : readType s' = some T') :
    SubT K D D' Q T T' := by
  obtain ⟨n, hn⟩ := h
  obtain ⟨n', hn'⟩ := h'
  have h1 := (eval_agreeT hg hgt hw (max n n') m t s hm (eval_mono (Nat.le_max_left _ _) hn)).read
  have h2 := (eval_agreeT hg' hgt' hw' (max n n') m t s' hm (eval_mono (Nat.le_max_right _ _) hn')).read
  rw [h1] at hT; rw [h2] at hT'
  cases hT; cases hT'
  exact subD_type (dOf_sub hP _ m t ht)

end

/-- The declared names of a program. -/
def Names (P : Program) (ns name : Str) : Prop := ∃ d ∈ P, d.ns = ns ∧ d.name = name

theorem linkedT_of {w : Prop} {K : Str → Prop} {D D' : TsEnv} {P₀ P P' : Program} (hP : ProgramSub w P₀ K (Names P₀) P P')
    (hn : ∀ (i : Nat) (d₀ d : Decl), P₀[i]? = some d₀ → P[i]? = some d → d.ns = d₀.ns ∧ d.name = d₀.name)
    (hn' : ∀ (i : Nat) (d₀ d : Decl), P₀[i]? = some d₀ → P'[i]? = some d → d.ns = d₀.ns ∧ d.name = d₀.name)
    (hg : GoodNames P) (hgt : GoodTypeNames P) (hw : WellStyled P) (hg' : GoodNames P')
    (hgt' : GoodTypeNames P') (hw' : WellStyled P') (hD : IsTsModule P D) (hD' : IsTsModule P' D') : LinkedT K D D' (Names P₀) := by
  rintro ns name ⟨d₀, hd₀, rfl, rfl⟩ t ht
  obtain ⟨i, hi⟩ := List.mem_iff_getElem?.1 hd₀
  have hlt : i < P₀.length := by
    rcases Nat.lt_or_ge i P₀.length with h | h
    · exact h
    · rw [List.getElem?_eq_none h] at hi; cases hi
  obtain ⟨d, d', h1, h2, -⟩ := hP i hlt
  obtain ⟨e1, e2⟩ := hn i d₀ d hi h1
  obtain ⟨e1', e2'⟩ := hn' i d₀ d' hi h2
  obtain ⟨s, hs, hd⟩ := hD i d h1
  obtain ⟨s', hs', hd'⟩ := hD' i d' h2
  rw [e1, e2] at hd
  rw [e1', e2'] at hd'
  rw [hd] at ht
  obtain ⟨n', hn'⟩ := hs'
  have hr := (eval_agreeT hg' hgt' hw' n' .typeDef (.named i) s' (.inl rfl) hn').read
  exact ⟨_, hd'.trans hr, read_sub hP hg hgt hw hg' hgt' hw' (.inl rfl) (.named hlt) hs ⟨n', hn'⟩ ht hr⟩

/-! ## From growing programs -/

theorem moreFields_cases {req : Bool} {K : Str → Prop} {l l' : List Field} (h : MoreFields req K l l') :
    ∀ f ∈ l', f ∈ l ∨ (f.named = true ∧ (req = true ∨ f.dflt = true) ∧ f.flatten = false ∧ K f.name) := by
  induction h with
  | nil => intro f hf; cases hf
  | same f _ ih =>
    intro g hg
    rcases List.mem_cons.1 hg with rfl | hg
    · exact .inl List.mem_cons_self
    · exact (ih g hg).imp (List.mem_cons_of_mem _) id
  | new f h1 h2 h3 _ h5 _ ih =>
    intro g hg
    rcases List.mem_cons.1 hg with rfl | hg
    · exact .inr ⟨h1, h2, h3, h5 _ List.mem_cons_self⟩
    · exact ih g hg

theorem moreFields_flat {req : Bool} {K : Str → Prop} {l l' : List Field} (h : MoreFields req K l l') :
    (sfieldsOf l').filter (·.flatten) = (sfieldsOf l).filter (·.flatten) := by
  induction h with
  | nil => rfl
  | same f _ ih =>
    rw [sfieldsOf_cons, sfieldsOf_cons, List.filter_append, List.filter_append, ih]
  | new f _ _ hf hs _ _ ih =>
    rw [sfieldsOf_cons, List.filter_append, ih]
    have hf' : (SField.ofField false f).flatten = false := hf
    simp [hs, hf']

theorem fieldsSub_forward {S : Ty → Prop} {K : Str → Prop} {l l' : List Field} (h : MoreFields false K l l')
    (hS : ∀ t ∈ fieldTypes l, S t) : FieldsSub S K l l' := by
  intro g hg hs
  rcases moreFields_cases h g hg with h1 | ⟨h1, h2, h3, h4⟩
  · exact .inl ⟨h1, hS _ (List.mem_map.2 ⟨g, List.mem_filter.2 ⟨h1, by simp [hs]⟩, rfl⟩)⟩
  · exact .inr ⟨h2.resolve_left nofun, h1, h3, h4⟩

theorem fieldsSub_backward {S : Ty → Prop} {req : Bool} {K K' : Str → Prop} {l l' : List Field} (h : MoreFields req K l l')
    (hS : ∀ t ∈ fieldTypes l, S t) : FieldsSub S K' l' l :=
  fun g hg hs => .inl ⟨moreFields_sub h g hg, hS _ (List.mem_map.2 ⟨g, List.mem_filter.2 ⟨hg, by simp [hs]⟩, rfl⟩)⟩

theorem variantsSub_forward {S : Ty → Prop} {K : Str → Prop} {l l' : List Variant} (h : MoreVariants K l l')
    (hS : ∀ v ∈ l, v.skipDe = false → ∀ t ∈ fieldTypes v.fields, S t) : VariantsSub S K l l' := by
  induction h with
  | nil => exact .nil
  | @same v v' _ _ h _ ih =>
    have hr := ih (fun w hw => hS w (List.mem_cons_of_mem _ hw))
    have hv := hS v List.mem_cons_self
    cases h with
    | same => exact .same _ hv hr
    | fields fs h1 h2 => exact .fields h1 h1 rfl rfl (fun hs => fieldsSub_forward h2 (hv hs)) hr
  | new v _ ih => exact .new v (ih hS)

theorem variantsSub_backward {S : Ty → Prop} {req : Bool} {K K' : Str → Prop} {l l' : List Variant} (h : All2 (MoreVariant req K) l l')
    (hS : ∀ v ∈ l, v.skipDe = false → ∀ t ∈ fieldTypes v.fields, S t) : VariantsSub S K' l' l := by
  induction h with
  | nil => exact .nil
  | @cons v v' _ _ h _ ih =>
    have hr := ih (fun w hw => hS w (List.mem_cons_of_mem _ hw))
    have hv := hS v List.mem_cons_self
    cases h with
    | same => exact .same _ hv hr
    | fields fs h1 h2 => exact .fields h1 h1 rfl rfl (fun hs => fieldsSub_backward h2 (hv hs)) hr

theorem moreVariants_of_all2 {K : Str → Prop} {l l' : List Variant} (h : All2 (MoreVariant false K) l l') : MoreVariants K l l' := by
  induction h with
  | nil => exact .nil
  | cons h _ ih => exact .same h ih

theorem enum_types {S : Ty → Prop} {e : EnumDecl} (h : ∀ t ∈ declTypes (.enum e), S t) :
    ∀ v ∈ e.variants, v.skipDe = false → ∀ t ∈ fieldTypes v.fields, S t :=
  fun v hv hs t ht => h t (List.mem_append.2 (.inl (List.mem_flatten.2 ⟨_, List.mem_map.2
    ⟨v, List.mem_filter.2 ⟨hv, by simp [hs]⟩, rfl⟩, ht⟩)))

theorem declSub_forward {S : Ty → Prop} {K : Str → Prop} {Q : Str → Str → Prop} {d d' : Decl} (h : WiderDecl K d d')
    (hS : ∀ t ∈ declTypes d, S t) (hq : Q d.ns d.name) : DeclSub False S K Q d d' := by
  cases h with
  | fields h =>
    cases h with
    | same => exact .same _ hS hq False.elim
    | struct s fs h1 h2 h3 =>
      exact .struct _ _ h1 h1 h2 h2 rfl rfl rfl (fun t ht => hS t (List.mem_append.2 (.inr ht))) hq
        (fieldsSub_forward h3 (fun t ht => hS t (List.mem_append.2 (.inl ht)))) (moreFields_flat h3) False.elim
    | enum e vs h =>
      exact .enum _ _ rfl rfl rfl rfl (fun t ht => hS t (List.mem_append.2 (.inr ht))) hq
        (variantsSub_forward (moreVariants_of_all2 h) (enum_types hS))
  | variants e vs h =>
    exact .enum _ _ rfl rfl rfl rfl (fun t ht => hS t (List.mem_append.2 (.inr ht))) hq (variantsSub_forward h (enum_types hS))

theorem declSub_backward {S : Ty → Prop} {req : Bool} {K K' : Str → Prop} {Q : Str → Str → Prop} {d d' : Decl} (h : MoreDecl req K d d')
    (hS : ∀ t ∈ declTypes d, S t) (hq : Q d.ns d.name) : DeclSub False S K' Q d' d := by
  cases h with
  | same => exact .same _ hS hq False.elim
  | struct s fs h1 h2 h3 =>
    exact .struct _ _ h1 h1 h2 h2 rfl rfl rfl (fun t ht => hS t (List.mem_append.2 (.inr ht))) hq
      (fieldsSub_backward h3 (fun t ht => hS t (List.mem_append.2 (.inl ht)))) (moreFields_flat h3).symm False.elim
  | enum e vs h =>
    exact .enum _ _ rfl rfl rfl rfl (fun t ht => hS t (List.mem_append.2 (.inr ht))) hq (variantsSub_backward h (enum_types hS))

theorem widerDecl_names {K : Str → Prop} {d d' : Decl} (h : WiderDecl K d d') : d'.ns = d.ns ∧ d'.name = d.name := by
  cases h with
  | fields h => cases h <;> exact ⟨rfl, rfl⟩
  | variants => exact ⟨rfl, rfl⟩

theorem moreDecl_names {req : Bool} {K : Str → Prop} {d d' : Decl} (h : MoreDecl req K d d') : d'.ns = d.ns ∧ d'.name = d.name := by
  cases h <;> exact ⟨rfl, rfl⟩

theorem programSub_forward {K : Str → Prop} {P P' : Program} (h : WiderProgram K P P') (hs : ∀ d ∈ P, ∀ u ∈ declTypes d, InScope P u) :
    ProgramSub False P K (Names P) P P' := by
  intro i hi
  have e := List.getElem?_eq_getElem hi
  obtain ⟨d', h1, h2⟩ := h i _ e
  have hm := List.mem_of_getElem? e
  exact ⟨_, d', e, h1, declSub_forward h2 (hs _ hm) ⟨_, hm, rfl, rfl⟩⟩

theorem programSub_backward {K : Str → Prop} {P P' : Program} (h : LargerProgram P P') (hs : ∀ d ∈ P, ∀ u ∈ declTypes d, InScope P u) :
    ProgramSub False P K (Names P) P' P := by
  intro i hi
  have e := List.getElem?_eq_getElem hi
  obtain ⟨d', h1, h2⟩ := h i _ e
  have hm := List.mem_of_getElem? e
  exact ⟨d', _, h1, e, declSub_backward h2 (hs _ hm) ⟨_, hm, rfl, rfl⟩⟩

theorem lacks_nothing (v : JsVal) : Lacks (fun _ => False) v := by
  match v with
  | .undefined => exact .undefined
  | .null => exact .null
  | .bool b => exact .bool b
  | .num n => exact .num n
  | .str s => exact .str s
  | .badStr n => exact .badStr n
  | .other => exact .other
  | .arr l => exact .arr l (fun v hv => lacks_nothing v)
  | .set l => exact .set l (fun v hv => lacks_nothing v)
  | .map l => exact .map l (fun p hp => lacks_nothing p.1) (fun p hp => lacks_nothing p.2)
  | .obj l => exact .obj l (fun _ _ h => h) (fun p hp => lacks_nothing p.2)
termination_by sizeOf v
decreasing_by
  all_goals simp_wf
  all_goals first
    | (have := List.sizeOf_lt_of_mem hv; omega)
    | (have h1 := List.sizeOf_lt_of_mem hp; have h2 : sizeOf p = 1 + sizeOf p.1 + sizeOf p.2 := (by cases p; rfl); omega)

end Verif.Ts
