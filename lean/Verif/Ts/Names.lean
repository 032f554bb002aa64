import Verif.Ts.TsOf
import Verif.Spec.Scope

/-!
# The names in generated types (proof helper)
-/

namespace Verif.Ts
open Verif Verif.Js Verif.Schema Verif.Spec

/-- All names in the types satisfy `Q`. -/
def DnfIn (Q : List Str → Prop) (d : Dnf) : Prop := ∀ c ∈ d, ∀ t ∈ c, NamesIn Q t

section
variable {Q : List Str → Prop}

theorem NamesIn.mono {R : List Str → Prop} {t : TsType} (h : NamesIn Q t) (hi : ∀ p, Q p → R p) : NamesIn R t := by
  induction h with
  | name p hp => exact .name p (hi p hp)
  | app p ts hp _ ih => exact .app p ts (hi p hp) ih
  | str s => exact .str s
  | tuple ts _ ih => exact .tuple ts ih
  | obj ps _ ih => exact .obj ps ih
  | union ts _ ih => exact .union ts ih
  | inter ts _ ih => exact .inter ts ih

theorem namesIn_conj {c : List TsType} (h : ∀ t ∈ c, NamesIn Q t) : NamesIn Q (ofConj c) := by
  unfold ofConj
  split
  · exact h _ (by simp)
  · exact .inter _ h

theorem namesIn_dnf {d : Dnf} (h : DnfIn Q d) : NamesIn Q (ofDnf d) := by
  unfold ofDnf
  split
  · exact namesIn_conj (h _ (by simp))
  · refine .union _ (fun t ht => ?_)
    obtain ⟨c, hc, rfl⟩ := List.mem_map.1 ht
    exact namesIn_conj (h c hc)

theorem dnfIn_single {t : TsType} (h : NamesIn Q t) : DnfIn Q [[t]] := by
  intro c hc t' ht
  rw [List.mem_singleton] at hc
  subst hc
  rw [List.mem_singleton] at ht
  subst ht
  exact h

theorem dnfIn_nil : DnfIn Q [] := fun c hc => by cases hc

theorem dnfIn_append {d e : Dnf} (h1 : DnfIn Q d) (h2 : DnfIn Q e) : DnfIn Q (d ++ e) := by
  intro c hc
  rcases List.mem_append.1 hc with hc | hc
  · exact h1 c hc
  · exact h2 c hc

theorem dnfIn_and {d e : Dnf} (h1 : DnfIn Q d) (h2 : DnfIn Q e) : DnfIn Q (andDnf d e) := by
  cases d with
  | nil => intro x hx; cases hx
  | cons d0 d =>
    cases e with
    | nil => intro x hx; cases hx
    | cons c r =>
      intro x hx t ht
      simp only [andDnf, List.append_assoc, List.mem_append, List.mem_singleton] at hx
      rcases hx with hx | rfl | hx
      · exact h1 x (List.dropLast_subset _ hx) t ht
      · rcases List.mem_append.1 ht with ht | ht
        · cases hg : (d0 :: d).getLast? with
          | none => rw [hg] at ht; cases ht
          | some y => rw [hg] at ht; exact h1 y (List.mem_of_getLast? hg) t ht
        · exact h2 c (by simp) t ht
      · exact h2 x (by simp [hx]) t ht

theorem dnfIn_foldl {l : List Dnf} {d : Dnf} (h1 : DnfIn Q d) (h2 : ∀ e ∈ l, DnfIn Q e) : DnfIn Q (l.foldl andDnf d) := by
  induction l generalizing d with
  | nil => exact h1
  | cons e l ih => exact ih (dnfIn_and h1 (h2 e (by simp))) (fun x hx => h2 x (by simp [hx]))

theorem dnfIn_tuple {α : Type} {g : α → Dnf} {l : List α} (h : ∀ a ∈ l, DnfIn Q (g a)) :
    DnfIn Q [[.tuple ((l.map g).map ofDnf)]] := by
  refine dnfIn_single (.tuple _ (fun t ht => ?_))
  obtain ⟨d, hd, rfl⟩ := List.mem_map.1 ht
  obtain ⟨a, ha, rfl⟩ := List.mem_map.1 hd
  exact namesIn_dnf (h a ha)

theorem namesIn_props {α : Type} {g : α → Str × Bool × Dnf} {l : List α} (h : ∀ a ∈ l, DnfIn Q (g a).2.2) :
    ∀ p ∈ (l.map g).map propT, NamesIn Q p.2.2 := by
  intro p hp
  obtain ⟨d, hd, rfl⟩ := List.mem_map.1 hp
  obtain ⟨a, ha, rfl⟩ := List.mem_map.1 hd
  exact namesIn_dnf (h a ha)

end

/-- Names of the platform, and `NS.NAME` of declarations of the program. -/
def TypeNames (P : Program) (p : List Str) : Prop :=
  (∃ x, p = [x] ∧ (x ∈ keywordTypes ∨ x ∈ [lit "Array", lit "Set", lit "Map"])) ∨ ∃ d ∈ P, p = [d.ns, d.name]

section
variable {P : Program} {g : Method → Ty → Dnf} (H : ∀ m t, DnfIn (TypeNames P) (g m t))
include H

omit H in
theorem keyword_names {x : Str} (h : x ∈ keywordTypes) : TypeNames P [x] := Or.inl ⟨x, rfl, Or.inl h⟩

omit H in
theorem undef_names : DnfIn (TypeNames P) undefD := dnfIn_single (.name _ (keyword_names (by simp [keywordTypes])))

omit H in
theorem opt_names {d : Dnf} (b : Bool) (h : DnfIn (TypeNames P) d) : DnfIn (TypeNames P) (optD b d) := by
  cases b with
  | false => exact h
  | true => exact dnfIn_append h undef_names

theorem sfield_names (f : SField) : DnfIn (TypeNames P) (sfieldD g f) := opt_names _ (H _ _)

theorem structD_names (s : StructDecl) : DnfIn (TypeNames P) (structD g s) := by
  unfold structD
  simp only
  split
  · split
    · exact sfield_names H _
    · exact dnfIn_nil
  · split
    · exact dnfIn_nil
    · exact sfield_names H _
    · exact dnfIn_tuple (fun f _ => sfield_names H f)
  · refine dnfIn_foldl (dnfIn_single (.obj _ (namesIn_props (fun f _ => sfield_names H f)))) (fun e he => ?_)
    obtain ⟨f, _, rfl⟩ := List.mem_map.1 he
    unfold flatD
    split
    · exact dnfIn_single (namesIn_dnf (dnfIn_append (H _ _) undef_names))
    · exact H _ _
  · exact dnfIn_nil

theorem vfield_names (f : Field) : DnfIn (TypeNames P) (vfieldD g f) := opt_names _ (H _ _)

omit H in
theorem props1 {Q : List Str → Prop} {k : Str} {b : Bool} {t : TsType} (h : NamesIn Q t) : NamesIn Q (.obj [(k, b, t)]) := by
  refine .obj _ (fun p hp => ?_)
  rw [List.mem_singleton] at hp
  subst hp
  exact h

omit H in
theorem props2 {Q : List Str → Prop} {k k' : Str} {b b' : Bool} {t t' : TsType} (h : NamesIn Q t) (h' : NamesIn Q t') :
    NamesIn Q (.obj [(k, b, t), (k', b', t')]) := by
  refine .obj _ (fun p hp => ?_)
  simp only [List.mem_cons, List.not_mem_nil, or_false] at hp
  rcases hp with rfl | rfl
  · exact h
  · exact h'

omit H in
theorem unit_names (tag : Tag) (n : Str) : NamesIn (TypeNames P) (unitD tag n) := by
  unfold unitD
  cases tag with
  | external => exact .str _
  | internal t => exact props1 (.str _)
  | adjacent t c => exact props1 (.str _)
  | untagged => exact .name _ (keyword_names (by simp [keywordTypes]))

theorem tupleFields_names (fs : List Field) : DnfIn (TypeNames P) (tupleFieldsD g fs) := by
  unfold tupleFieldsD
  split
  · exact vfield_names H _
  · exact dnfIn_tuple (fun f _ => vfield_names H f)

theorem variant_names (tag : Tag) (v : Variant) : DnfIn (TypeNames P) (variantD g tag v) := by
  unfold variantD
  split
  · exact dnfIn_single (unit_names tag _)
  · have hp : ∀ p ∈ (v.kept.map (vfieldP g)).map propT, NamesIn (TypeNames P) p.2.2 :=
      namesIn_props (fun f _ => vfield_names H f)
    unfold structVariantD
    cases tag with
    | external => exact dnfIn_single (props1 (.obj _ hp))
    | internal t =>
      refine dnfIn_single (.obj _ (fun p hp' => ?_))
      rcases List.mem_cons.1 hp' with rfl | hp'
      · exact .str _
      · exact hp p hp'
    | adjacent t c => exact dnfIn_single (props2 (.str _) (.obj _ hp))
    | untagged => exact dnfIn_single (.obj _ hp)
  · unfold tupleVariantD
    split
    · exact dnfIn_single (unit_names tag _)
    · cases tag with
      | external => exact dnfIn_single (props1 (namesIn_dnf (tupleFields_names H _)))
      | internal t => exact dnfIn_single (props1 (namesIn_dnf (tupleFields_names H _)))
      | adjacent t c => exact dnfIn_single (props2 (.str _) (namesIn_dnf (tupleFields_names H _)))
      | untagged => exact tupleFields_names H _

theorem body_names (m : Method) (t : Ty) : DnfIn (TypeNames P) (tBody g P m t) := by
  have href : ∀ d ∈ P, DnfIn (TypeNames P) [[.name [d.ns, d.name]]] :=
    fun d hd => dnfIn_single (.name _ (Or.inr ⟨d, hd, rfl⟩))
  have hgen : ∀ x, x ∈ [lit "Array", lit "Set", lit "Map"] → ∀ ts : List TsType, (∀ t ∈ ts, NamesIn (TypeNames P) t) →
      DnfIn (TypeNames P) [[.app [x] ts]] := fun x hx ts hts => dnfIn_single (.app _ _ (Or.inl ⟨x, rfl, Or.inr hx⟩) hts)
  have hone : ∀ t : TsType, NamesIn (TypeNames P) t → ∀ x ∈ [t], NamesIn (TypeNames P) x := by
    intro t ht x hx
    rw [List.mem_singleton] at hx
    subst hx
    exact ht
  unfold tBody
  split
  · split
    · rename_i d hd
      have hmem := List.mem_of_getElem? hd
      split
      · cases d with
        | struct s =>
          simp only [declD]
          split
          · exact H _ _
          · exact structD_names H s
        | enum e =>
          simp only [declD]
          split
          · exact H _ _
          · intro c hc
            obtain ⟨x, hx, hc⟩ := List.mem_flatten.1 hc
            obtain ⟨v, _, rfl⟩ := List.mem_map.1 hx
            exact variant_names H _ v c hc
      · cases d with
        | struct s =>
          simp only [declInlineD]
          split
          · exact H _ _
          · exact href _ hmem
        | enum e =>
          simp only [declInlineD]
          split
          · exact H _ _
          · exact href _ hmem
      · exact dnfIn_nil
    · exact dnfIn_nil
  · exact H _ _
  · rename_i p
    refine dnfIn_single (.name _ (keyword_names ?_))
    cases p <;> decide
  · exact H _ _
  · exact dnfIn_single (namesIn_dnf (dnfIn_append (H _ _) undef_names))
  · exact hgen _ (by simp) _ (hone _ (namesIn_dnf (H _ _)))
  · exact hgen _ (by simp) _ (hone _ (namesIn_dnf (H _ _)))
  · refine hgen _ (by simp) _ (fun t ht => ?_)
    simp only [List.mem_cons, List.not_mem_nil, or_false] at ht
    rcases ht with rfl | rfl <;> exact namesIn_dnf (H _ _)
  · exact H _ _
  · exact H _ _
  · exact H _ _
  · exact dnfIn_tuple (fun t _ => H _ _)
  · intro c hc t ht
    simp only [List.mem_cons, List.not_mem_nil, or_false] at hc
    rcases hc with rfl | rfl <;> (rw [List.mem_singleton] at ht; subst ht; exact props1 (namesIn_dnf (H _ _)))
  · exact dnfIn_nil

end

theorem dOf_names (P : Program) (n : Nat) (m : Method) (t : Ty) : DnfIn (TypeNames P) (dOf P n m t) := by
  induction n generalizing m t with
  | zero => exact dnfIn_nil
  | succ n ih => exact body_names ih m t

end Verif.Ts
