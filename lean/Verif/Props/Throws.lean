import Verif.Props.Sound
import Verif.Zod.Throws

/-!
# C03, exactly

Which programs have schemas that can be evaluated.
-/

namespace Verif.Props
open Verif Verif.Js Verif.Zod Verif.Schema Verif.SchemaSpec Verif.Spec

/-- **C03, exactly, for the derived types of a program.** If no object in a schema has a property twice, the texts of
all schemas can be evaluated if and only if there is no `bool` in them, internally tagged enums of two or more variants
have no payloads in tuple variants, and the variants of tagged enums have different names. -/
theorem C03_exact (P : Program) (hg : GoodNames P) (hw : WellStyled P) (hpl : ∀ d ∈ P, Plain d)
    (hk : ∀ d ∈ P, KeysOk d) (htn : ∀ d ∈ P, TagIsNoVariant d)
    (hr : ∀ i, i < P.length → ∃ s, Returns P .schema (.named i) s) :
    (∀ i s, i < P.length → Returns P .schema (.named i) s → ∃ z, readSchema s = some z) ↔ ∀ d ∈ P, Constructs d := by
  constructor
  · intro h d hd
    obtain ⟨i, hi, rfl⟩ := List.getElem_of_mem hd
    obtain ⟨s, n, hn⟩ := hr i hi
    obtain ⟨z, hz⟩ := h i s hi ⟨n, hn⟩
    rw [(eval_agree hg hw n .schema (.named i) s (Or.inl rfl) hn).read] at hz
    exact decl_some (List.getElem?_eq_getElem hi) (hpl _ hd) (htn _ hd) hz
  · rintro h i s hi ⟨n, hn⟩
    obtain ⟨z, hz⟩ := zOf_total' hw hpl hk h n .schema (.named i) s (Or.inl rfl) rfl hn
    exact ⟨z, (eval_agree hg hw n .schema (.named i) s (Or.inl rfl) hn).read.trans hz⟩

/-- **C03, exactly, for any type.** In a program with such declarations the text of a type can be evaluated if and only
if there is no `bool` in the type. -/
theorem C03_exact_type (P : Program) (hg : GoodNames P) (hw : WellStyled P) (hpl : ∀ d ∈ P, Plain d)
    (hk : ∀ d ∈ P, KeysOk d) (hc : ∀ d ∈ P, Constructs d) (m : Method) (hm : m = .schema ∨ m = .inlineSchema) (t : Ty)
    (s : Str) (h : Returns P m t s) : (∃ z, readSchema s = some z) ↔ noBool t = true := by
  obtain ⟨n, hn⟩ := h
  rw [(eval_agree hg hw n m t s hm hn).read]
  constructor
  · rintro ⟨z, hz⟩
    exact noBool_of_zOf n m t z hm hz
  · intro hb
    exact zOf_total' hw hpl hk hc n m t s hm hb hn

/-- The program with all kinds of declarations meets the hypotheses, and the condition. -/
example : (∀ d ∈ exZod, KeysOk d) ∧ (∀ d ∈ exZod, TagIsNoVariant d) ∧ (∀ d ∈ exZod, Constructs d) ∧
    ∀ i, i < exZod.length → ∃ s, Returns exZod .schema (.named i) s := by
  refine ⟨fun d hd => NoThrow.keys (exZod_noThrow d hd), ?_, fun d hd => NoThrow.constructs (exZod_noThrow d hd), ?_⟩
  · intro d hd
    simp only [exZod, List.mem_cons, List.not_mem_nil, or_false] at hd
    rcases hd with e | e | e | e | e | e <;> subst e <;> intro e t he <;> cases he <;> intro ht <;> cases ht <;>
      simp [exEnum, exVariant]
    decide +kernel
  · intro i hi
    obtain ⟨s, hs⟩ := exZod_returns i _ (List.getElem?_eq_getElem hi)
    exact ⟨s, 6, hs⟩

/-- The program of `C03_violated_tagged` meets the hypotheses, but not the condition. -/
example : (∀ d ∈ exTagged, Plain d ∧ KeysOk d ∧ TagIsNoVariant d ∧ ¬ Constructs d) ∧
    ∃ s, Returns exTagged .schema (.named 0) s := by
  refine ⟨?_, _, 4, rfl⟩
  intro d hd
  simp only [exTagged, List.mem_singleton] at hd
  subst hd
  refine ⟨by simp [Plain, exEnum, exVariant, exPos, exField], ?_, ?_, ?_⟩
  · intro _ v hv _
    simp [exEnum] at hv
    rcases hv with rfl | rfl <;> simp [OkVariant, exEnum, exVariant, goodKeys] <;> decide +kernel
  · intro e t he ht v hv
    cases he
    cases ht
    simp [exEnum] at hv
    rcases hv with rfl | rfl <;> decide +kernel
  · intro h
    have := (h.2 _ rfl rfl (by simp [exEnum, exVariant])).1 (exVariant "A" .tuple [exPos (.prim .u8)]) (by simp [exEnum]) rfl rfl
    cases this

end Verif.Props
