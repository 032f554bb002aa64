import Verif.Ts.SubProgram
import Verif.Spec.Shuffle

/-!
# The types of a program whose fields are in another order
-/

namespace Verif.Ts
open Verif Verif.Js Verif.Schema Verif.Spec Verif.SchemaSpec Verif.Zod

theorem sfieldsOf_flat (fs : List Field) :
    (sfieldsOf fs).filter (·.flatten) = ((fs.filter (·.flatten)).filter (fun f => !f.skipDe)).map (SField.ofField false) := by
  unfold sfieldsOf
  induction fs with
  | nil => rfl
  | cons f r ih =>
    cases h1 : f.skipDe <;> cases h2 : f.flatten <;> simp [h1, h2, SField.ofField] at ih ⊢ <;> exact ih

theorem fieldsSub_perm {S : Ty → Prop} {K : Str → Prop} {l l' : List Field} (h : l.Perm l') (hS : ∀ t ∈ fieldTypes l, S t) :
    FieldsSub S K l l' ∧ FieldsSub S K l' l := by
  have hf : ∀ f ∈ l, f.skipDe = false → S f.ty := fun f hf hs => hS _ (List.mem_map.2 ⟨f, List.mem_filter.2 ⟨hf, by simp [hs]⟩, rfl⟩)
  exact ⟨fun g hg hs => .inl ⟨h.mem_iff.2 hg, hf g (h.mem_iff.2 hg) hs⟩, fun g hg hs => .inl ⟨h.mem_iff.1 hg, hf g hg hs⟩⟩

theorem variantsSub_reordered {S : Ty → Prop} {K : Str → Prop} {l l' : List Variant} (h : All2 ReorderedVariant l l')
    (hS : ∀ v ∈ l, v.skipDe = false → ∀ t ∈ fieldTypes v.fields, S t) : VariantsSub S K l l' ∧ VariantsSub S K l' l := by
  induction h with
  | nil => exact ⟨.nil, .nil⟩
  | cons h _ ih =>
    obtain ⟨h1, h2⟩ := ih (fun v hv => hS v (List.mem_cons_of_mem _ hv))
    have h3 := hS _ List.mem_cons_self
    cases h with
    | same => exact ⟨.same _ h3 h1, .same _ h3 h2⟩
    | fields fs hn hp =>
      exact ⟨.fields hn hn rfl rfl (fun hs => (fieldsSub_perm hp (h3 hs)).1) h1,
        .fields hn hn rfl rfl (fun hs => (fieldsSub_perm hp (h3 hs)).2) h2⟩

theorem declSub_reordered {w : Prop} {S : Ty → Prop} {K : Str → Prop} {Q : Str → Str → Prop} {d d' : Decl} (h : ReorderedDecl d d')
    (hf : flattenedFields d = flattenedFields d') (hw : w → flattenedFields d = []) (hS : ∀ t ∈ declTypes d, S t) (hq : Q d.ns d.name) :
    DeclSub w S K Q d d' ∧ DeclSub w S K Q d' d := by
  cases h with
  | same => exact ⟨.same _ hS hq hw, .same _ hS hq hw⟩
  | struct s fs h1 h2 h3 =>
    have e : (sfieldsOf fs).filter (·.flatten) = (sfieldsOf s.fields).filter (·.flatten) := by
      rw [sfieldsOf_flat, sfieldsOf_flat]
      exact congrArg _ (congrArg _ hf.symm)
    obtain ⟨a, b⟩ := fieldsSub_perm (K := K) h3 (fun t ht => hS t (List.mem_append.2 (.inl ht)))
    exact ⟨.struct _ _ h1 h1 h2 h2 rfl rfl rfl (fun t ht => hS t (List.mem_append.2 (.inr ht))) hq a e hw,
      .struct _ _ h1 h1 h2 h2 rfl rfl rfl (fun t ht => hS t (List.mem_append.2 (.inr ht))) hq b e.symm
        (fun h => hf ▸ hw h)⟩
  | enum e vs h =>
    obtain ⟨a, b⟩ := variantsSub_reordered (K := K) h (enum_types hS)
    exact ⟨.enum _ _ rfl rfl rfl rfl (fun t ht => hS t (List.mem_append.2 (.inr ht))) hq a,
      .enum _ _ rfl rfl rfl rfl (fun t ht => hS t (List.mem_append.2 (.inr ht))) hq b⟩

theorem shuffledTypes_perm {w : Prop} {S : Ty → Prop} {K : Str → Prop} {Q : Str → Str → Prop} (hw : w) (e : EnumDecl) {vs : List Variant}
    (hp : e.variants.Perm vs) (hS : ∀ t ∈ declTypes (.enum e), S t) (hq : Q e.ns e.name) :
    DeclSub w S K Q (.enum e) (.enum { e with variants := vs }) ∧ DeclSub w S K Q (.enum { e with variants := vs }) (.enum e) := by
  refine ⟨.perm e vs hw hp hS hq, .perm { e with variants := vs } e.variants hw hp.symm (fun t ht => hS t ?_) hq⟩
  rcases List.mem_append.1 ht with ht | ht
  · exact List.mem_append.2 (.inl ((((hp.filter _).map _).flatten).mem_iff.2 ht))
  · exact List.mem_append.2 (.inr ht)

theorem declSub_shuffled {w : Prop} {T : Tag → Prop} {S : Ty → Prop} {K : Str → Prop} {Q : Str → Str → Prop} {d d' : Decl}
    (hT : ∀ tag, T tag → w) (h : ShuffledDecl T d d') (hf : flattenedFields d = flattenedFields d') (hw : w → flattenedFields d = [])
    (hS : ∀ t ∈ declTypes d, S t) (hq : Q d.ns d.name) : DeclSub w S K Q d d' ∧ DeclSub w S K Q d' d := by
  cases h with
  | fields h => exact declSub_reordered h hf hw hS hq
  | variants e vs ht hp => exact shuffledTypes_perm (hT _ ht) e hp hS hq

theorem shuffled_at {T : Tag → Prop} {P P' : Program} (h : ShuffledProgram T P P') (hf : SameFlattened P P') :
    ∀ (i : Nat) (d : Decl), P[i]? = some d → ∃ d', P'[i]? = some d' ∧ ShuffledDecl T d d' ∧ flattenedFields d = flattenedFields d' := by
  unfold ShuffledProgram at h
  unfold SameFlattened at hf
  induction h with
  | nil => intro i d hd; simp at hd
  | cons h _ ih =>
    simp only [List.map_cons, List.cons.injEq] at hf
    intro i d hd
    cases i with
    | zero => cases hd; exact ⟨_, rfl, h, hf.1⟩
    | succ i => exact ih hf.2 i d hd

theorem shuffledDecl_named {T : Tag → Prop} {d d' : Decl} (h : ShuffledDecl T d d') : d'.ns = d.ns ∧ d'.name = d.name := by
  cases h with
  | fields h => cases h <;> exact ⟨rfl, rfl⟩
  | variants => exact ⟨rfl, rfl⟩

theorem programSub_shuffled {w : Prop} {T : Tag → Prop} {K : Str → Prop} {P P' : Program} (hT : ∀ tag, T tag → w)
    (h : ShuffledProgram T P P') (hf : SameFlattened P P') (hw : w → ∀ d ∈ P, flattenedFields d = [])
    (hs : ∀ d ∈ P, ∀ u ∈ declTypes d, InScope P u) : ProgramSub w P K (Names P) P P' ∧ ProgramSub w P K (Names P) P' P := by
  have key : ∀ i, i < P.length → ∃ d d', P[i]? = some d ∧ P'[i]? = some d' ∧ DeclSub w (InScope P) K (Names P) d d' ∧
      DeclSub w (InScope P) K (Names P) d' d := by
    intro i hi
    have e := List.getElem?_eq_getElem hi
    obtain ⟨d', h1, h2, h3⟩ := shuffled_at h hf i _ e
    have hm := List.mem_of_getElem? e
    exact ⟨_, d', e, h1, declSub_shuffled hT h2 h3 (fun x => hw x _ hm) (hs _ hm) ⟨_, hm, rfl, rfl⟩⟩
  refine ⟨fun i hi => ?_, fun i hi => ?_⟩
  · obtain ⟨d, d', h1, h2, h3, _⟩ := key i hi
    exact ⟨d, d', h1, h2, h3⟩
  · obtain ⟨d, d', h1, h2, _, h3⟩ := key i hi
    exact ⟨d', d, h2, h1, h3⟩

/-- The types of both programs have the same values. -/
theorem shuffled_values {w : Prop} {T₀ : Tag → Prop} {P P' : Program} (hT₀ : ∀ tag, T₀ tag → w) (hP : ShuffledProgram T₀ P P')
    (hf : SameFlattened P P') (hfl : w → ∀ d ∈ P, flattenedFields d = []) (hs : ∀ d ∈ P, ∀ u ∈ declTypes d, InScope P u)
    (hg : GoodNames P) (hgt : GoodTypeNames P) (hw : WellStyled P) (hg' : GoodNames P') (hgt' : GoodTypeNames P') (hw' : WellStyled P')
    {D D' : TsEnv} (hD : IsTsModule P D) (hD' : IsTsModule P' D') {m : Method} (hm : m = .typeDef ∨ m = .inline) {t : Ty}
    (ht : InScope P t) {s s' : Str} (h : Returns P m t s) (h' : Returns P' m t s') {T T' : TsType} (hT : readType s = some T)
    (hT' : readType s' = some T') (lenient : Bool) (v : JsVal) : Inhabits D lenient T v ↔ Inhabits D' lenient T' v := by
  obtain ⟨hS, hS'⟩ := programSub_shuffled (K := fun _ => False) hT₀ hP hf hfl hs
  have n1 : ∀ (i : Nat) (d₀ d : Decl), P[i]? = some d₀ → P[i]? = some d → d.ns = d₀.ns ∧ d.name = d₀.name := by
    intro i d₀ d h₀ h₁
    rw [h₀] at h₁; cases h₁
    exact ⟨rfl, rfl⟩
  have n2 : ∀ (i : Nat) (d₀ d : Decl), P[i]? = some d₀ → P'[i]? = some d → d.ns = d₀.ns ∧ d.name = d₀.name := by
    intro i d₀ d h₀ h₁
    obtain ⟨d', e, hd, _⟩ := shuffled_at hP hf i d₀ h₀
    rw [h₁] at e; cases e
    exact shuffledDecl_named hd
  exact ⟨fun hv => sub_values (linkedT_of hS n1 n2 hg hgt hw hg' hgt' hw' hD hD') hv (lacks_nothing v) T'
      (read_sub hS hg hgt hw hg' hgt' hw' hm ht h h' hT hT'),
    fun hv => sub_values (linkedT_of hS' n2 n1 hg' hgt' hw' hg hgt hw hD' hD) hv (lacks_nothing v) T
      (read_sub hS' hg' hgt' hw' hg hgt hw hm ht h' h hT' hT)⟩

end Verif.Ts
