import Verif.Zod.EnumShape
import Verif.Props.Complete

/-!
# C13: enum schemas match serde's four representations
-/

namespace Verif.Props
open Verif Verif.Schema Verif.SchemaSpec Verif.Js Verif.Zod Verif.Spec

/-- The full property: the schema of an enum is well-formed and accepts exactly the values that have the shape
of one of the variants that are not skipped. -/
def C13_statement : Prop :=
  ∀ (P : Program) (E : ZEnv), Valid P → GoodNames P → WellStyled P → (∀ d ∈ P, Plain d) → IsModule P E →
    ∀ (i : Nat) (e : EnumDecl), P[i]? = some (.enum e) → e.from_ = .none → ∀ s, Returns P .schema (.named i) s →
      ∃ z, readSchema s = some z ∧ ∀ v, (Accepts E z v ↔
        ∃ w ∈ e.variants, w.skipDe = false ∧ Shape (TypeAccepts P E) e.tag w v)

/-- A program of one enum, with the schemas of its module. -/
theorem C13_refute (e : EnumDecl) (n : Nat) (s : Str) (hf : e.from_ = .none) (hv : Valid [.enum e])
    (hg : goodDecl (.enum e) = true) (hp : Plain (.enum e)) (he : eval [.enum e] n .schema (.named 0) = some s)
    (h : ∀ z, zOf [.enum e] n .schema (.named 0) = some z → ∃ v, ¬ (Accepts (moduleEnv [.enum e] n) z v ↔
      ∃ w ∈ e.variants, w.skipDe = false ∧ Shape (TypeAccepts [.enum e] (moduleEnv [.enum e] n)) e.tag w v)) :
    ¬ C13_statement := by
  intro hst
  have hg : GoodNames [.enum e] := by intro d hd; rw [List.mem_singleton] at hd; subst hd; exact hg
  have hw : WellStyled [.enum e] := by intro d hd; rw [List.mem_singleton] at hd; subst hd; rfl
  have hpl : ∀ d ∈ [Decl.enum e], Plain d := by intro d hd; rw [List.mem_singleton] at hd; subst hd; exact hp
  have hm := moduleEnv_isModule (P := [.enum e]) (n := n) hg hw (by unfold DistinctDecls; simp) (by
    intro i d hd
    match i, hd with
    | 0, _ => exact ⟨s, he⟩
    | i + 1, hd => simp at hd)
  obtain ⟨z, hz, hs⟩ := hst _ _ hv hg hw hpl hm 0 e rfl hf s ⟨n, he⟩
  rw [(eval_agree hg hw n .schema (.named 0) s (Or.inl rfl) he).read] at hz
  obtain ⟨v, hv⟩ := h z hz
  exact hv (hs v)

/-- It is false: with a newtype variant in an internally tagged enum, `z.discriminatedUnion` throws. -/
theorem C13_violated : ¬ C13_statement := by
  refine C13_refute (exEnum "E" (.internal (lit "type")) [exVariant "A" .tuple [exPos (.prim .u8)], exVariant "B" .unit []])
    4 _ rfl ⟨?_, ?_⟩ (by decide +kernel) (by simp [Plain, exEnum, exVariant, exPos, exField]) rfl ?_
  · intro d hd; rw [List.mem_singleton] at hd; subst hd; exact ⟨_, rfl⟩
  · intro d hd t ht
    rw [List.mem_singleton] at hd; subst hd
    simp [declTypes, fieldTypes, exEnum, exVariant, exPos, exField, From.ty?] at ht
    subst ht; exact .prim _
  · intro z hz; cases hz

/-- It is false: the payload of `enum E { A(Option<u8>) }` can be left out; `{}` is accepted. -/
theorem C13_violated_missing : ¬ C13_statement := by
  refine C13_refute (exEnum "E" .external [exVariant "A" .tuple [exPos (.option (.prim .u8))]])
    6 _ rfl ⟨?_, ?_⟩ (by decide +kernel) (by simp [Plain, exEnum, exVariant, exPos, exField]) rfl ?_
  · intro d hd; rw [List.mem_singleton] at hd; subst hd; exact ⟨_, rfl⟩
  · intro d hd t ht
    rw [List.mem_singleton] at hd; subst hd
    simp [declTypes, fieldTypes, exEnum, exVariant, exPos, exField, From.ty?] at ht
    subst ht; exact .option (.prim _)
  · intro z hz
    refine ⟨.obj [], fun h => ?_⟩
    have hz' : z = .object [(lit "A", .optional (.number [.finite, .int, .gte 0, .lte 255]))] := by
      injection hz with hz; exact hz.symm
    subst hz'
    obtain ⟨w, _, _, h⟩ := h.1 ⟨.obj [], 3, rfl⟩
    have htag : (exEnum "E" .external [exVariant "A" .tuple [exPos (.option (.prim .u8))]]).tag = .external := rfl
    rw [htag] at h
    cases h with
    | external _ _ x h => cases h

/-- It is false: a tuple variant without fields is written as an array, the schema asks for its name. -/
theorem C13_violated_empty : ¬ C13_statement := by
  refine C13_refute (exEnum "E" .external [exVariant "A" .tuple []])
    6 _ rfl ⟨?_, ?_⟩ (by decide +kernel) (by simp [Plain, exEnum, exVariant]) rfl ?_
  · intro d hd; rw [List.mem_singleton] at hd; subst hd; exact ⟨_, rfl⟩
  · intro d hd t ht
    rw [List.mem_singleton] at hd; subst hd
    simp [declTypes, fieldTypes, exEnum, exVariant, From.ty?] at ht
  · intro z hz
    refine ⟨.str (lit "A"), fun h => ?_⟩
    have hz' : z = .literal (lit "A") := by injection hz with hz; exact hz.symm
    subst hz'
    obtain ⟨w, hw, _, h⟩ := h.1 ⟨.str (lit "A"), 1, rfl⟩
    have hw : w = exVariant "A" .tuple [] := by simpa [exEnum] using hw
    have hst : w.style = .tuple := by rw [hw]; rfl
    have htag : (exEnum "E" .external [exVariant "A" .tuple []]).tag = .external := rfl
    rw [htag] at h
    generalize hx : JsVal.str (lit "A") = x at h
    cases h with
    | externalUnit _ h => rw [hst] at h; cases h
    | external _ _ _ _ _ => cases hx

/-- **C13.** The property holds for enums of all four representations whose variants are as `ShapedVariant`
says (unit variants, newtype, tuple and struct variants, any number of them). -/
theorem C13_partial (P : Program) (E : ZEnv) (hn : GoodNames P) (hw : WellStyled P) (hpl : ∀ d ∈ P, Plain d)
    (hnt : ∀ d ∈ P, NoThrow d) (hg : Guarded P) (hE : IsModule P E) (i : Nat) (e : EnumDecl)
    (hd : P[i]? = some (.enum e)) (hf : e.from_ = .none)
    (hsv : ∀ w ∈ e.variants, w.skipDe = false → ShapedVariant P e.tag w) (s : Str)
    (h : Returns P .schema (.named i) s) :
    ∃ z, readSchema s = some z ∧ ∀ v, (Accepts E z v ↔
      ∃ w ∈ e.variants, w.skipDe = false ∧ Shape (TypeAccepts P E) e.tag w v) := by
  obtain ⟨k, hk⟩ := h
  have hEok := envOk_of_module hn hw hE
  obtain ⟨n, rfl⟩ : ∃ n, k = n + 1 := by cases k with
    | zero => cases hk
    | succ n => exact ⟨n, rfl⟩
  obtain ⟨z, hz⟩ := zOf_total hw hpl hnt (n + 1) .schema (.named i) s (Or.inl rfl) rfl hk
  have hr := (eval_agree hn hw (n + 1) .schema (.named i) s (Or.inl rfl) hk).read
  rw [hz] at hr
  refine ⟨z, hr, fun v => ?_⟩
  have hmem := List.mem_of_getElem? hd
  have hft : e.from_.ty? = none := by rw [hf]; rfl
  have hz' : enumZ (zOf P n) e = some z := by
    have hz : zBody (zOf P n) P .schema (.named i) = some z := hz
    obtain ⟨d, hd', ⟨_, hz⟩ | ⟨c, _⟩⟩ := zBody_some hz
    · rw [hd] at hd'; injection hd' with hd'; subst hd'
      simp only [declZ, hft] at hz
      exact hz
    · cases c
  have hkm : ∀ w ∈ e.kept, w ∈ e.variants ∧ w.skipDe = false := fun w hw =>
    ⟨(List.mem_filter.1 hw).1, by simpa using (List.mem_filter.1 hw).2⟩
  -- the schema of a field's type is what `inline_schema()` returns
  have hok : ∀ w ∈ e.kept, ∀ f ∈ keptFields w.fields, ∀ z, zOf P n .inlineSchema f.ty = some z → ∀ v,
      Accepts E z v ↔ TypeAccepts P E f.ty v := by
    intro w hw' f hf' z hz v
    obtain ⟨ps, hb, _⟩ := eval_succ.1 hk
    obtain ⟨d, impl, hd', hi, rfl⟩ := body_named hb
    rw [hd] at hd'; injection hd' with hd'; subst hd'
    have hty : f.ty ∈ declTypes (.enum e) := List.mem_append_left _ (List.mem_flatten.2
      ⟨_, List.mem_map.2 ⟨w, hw', rfl⟩, List.mem_map.2 ⟨f, hf', rfl⟩⟩)
    obtain ⟨s', hs'⟩ := eval_sub hk hb (derive_mem (hpl _ hmem) hft hi hty).1
    have hr' := (eval_agree hn hw n .inlineSchema f.ty s' (Or.inr rfl) hs').read
    rw [hz] at hr'
    constructor
    · exact fun h => ⟨s', z, ⟨n, hs'⟩, hr', h⟩
    · rintro ⟨s2, z2, h1, h2, h3⟩
      rw [returns_unique h1 ⟨n, hs'⟩, hr'] at h2
      injection h2 with h2
      exact h2 ▸ h3
  have hnu : ∀ w ∈ e.kept, ∀ f ∈ keptFields w.fields, NeverUndef P f.ty → ¬ TypeAccepts P E f.ty .undefined := by
    rintro w hw' f hf' hu ⟨s', z, ⟨m, hm⟩, h2, r, k, h3⟩
    have hr' := (eval_agree hn hw m .inlineSchema f.ty s' (Or.inr rfl) hm).read
    rw [h2] at hr'
    exact never_undef hEok hw hpl hu k m .inlineSchema z r hr'.symm h3
  rw [enum_iff (P := P) (ok := TypeAccepts P E) hz' (hnt _ hmem) ?_ (fun w hw => hsv w (hkm w hw).1 (hkm w hw).2) hok hnu]
  · constructor
    · rintro ⟨w, hw, h⟩; exact ⟨w, (hkm w hw).1, (hkm w hw).2, h⟩
    · rintro ⟨w, hw, hs, h⟩; exact ⟨w, List.mem_filter.2 ⟨hw, by simp [hs]⟩, h⟩
  · intro w _ z hz
    refine ends_variant hz (fun _ _ f _ z hz => ?_) (fun f z a hz _ => ?_)
    · exact ends_opt hz fun z hz => ends hEok hw hpl hg _ f.ty n _ z hz
    · exact ends_opt hz fun z hz => ends hEok hw hpl hg _ f.ty n _ z hz

theorem exZod_shaped : ∀ (i : Nat) (e : EnumDecl), exZod[i]? = some (.enum e) →
    ∀ w ∈ e.variants, w.skipDe = false → ShapedVariant exZod e.tag w := by
  intro i e hd w hw _
  have hp : ∀ p, NeverUndef exZod (.prim p) := .prim
  match i, hd with
  | 0, hd => cases hd
  | 1, hd =>
    cases hd
    simp only [exEnum, List.mem_cons, List.not_mem_nil, or_false] at hw
    rcases hw with rfl | rfl | rfl | rfl <;>
      simp [ShapedVariant, exEnum, exVariant, exPos, exField, keptFields, hp]
  | 2, hd =>
    cases hd
    simp only [exEnum, List.mem_cons, List.not_mem_nil, or_false] at hw
    rcases hw with rfl | rfl <;>
      simp [ShapedVariant, exEnum, exVariant, exField, keptFields]
  | 3, hd =>
    cases hd
    simp only [exEnum, List.mem_cons, List.not_mem_nil, or_false] at hw
    rcases hw with rfl | rfl | rfl <;>
      simp [ShapedVariant, exEnum, exVariant, exPos, exField, keptFields, hp]
  | 4, hd => cases hd
  | 5, hd => cases hd
  | n + 6, hd => simp [exZod] at hd

/-- The schemas of `Shape`, `Event` and `Msg` (externally, internally and adjacently tagged). -/
example (i : Nat) (e : EnumDecl) (h : exZod[i]? = some (.enum e)) : ∃ s z, Returns exZod .schema (.named i) s ∧
    readSchema s = some z ∧ ∀ v, (Accepts (moduleEnv exZod 6) z v ↔
      ∃ w ∈ e.variants, w.skipDe = false ∧ Shape (TypeAccepts exZod (moduleEnv exZod 6)) e.tag w v) := by
  obtain ⟨s, hs⟩ := exZod_returns i _ h
  have hf : e.from_ = .none := by
    match i, h with
    | 0, h => cases h
    | 1, h => cases h; rfl
    | 2, h => cases h; rfl
    | 3, h => cases h; rfl
    | 4, h => cases h
    | 5, h => cases h
    | n + 6, h => simp [exZod] at h
  obtain ⟨z, hz⟩ := C13_partial exZod _ exZod_good exZod_styled exZod_plain exZod_noThrow exZod_guarded exZod_module i e
    h hf (exZod_shaped i e h) s ⟨6, hs⟩
  exact ⟨s, z, ⟨6, hs⟩, hz⟩

end Verif.Props
