import Verif.Zod.Rename
import Verif.Zod.RenameDe
import Verif.Props.Reorder

/-!
# C87: what a type is called does not matter
-/

namespace Verif.Props
open Verif Verif.Schema Verif.SchemaSpec Verif.Js Verif.Spec Verif.Zod

/-- **C87.** Let the types of a program have other names or be in other namespaces. Then evaluating the schema of a type throws
for both programs or for neither. If it throws for neither, the two schemas accept the same values with the same results and reject
the same values. -/
theorem C87_same_results (f : Str → Str → Str × Str) (P : Program) (hg : GoodNames P) (hw : WellStyled P)
    (hg' : GoodNames (renameProgram f P)) (hw' : WellStyled (renameProgram f P)) (E E' : ZEnv) (hE : IsModule P E)
    (hE' : IsModule (renameProgram f P) E') (m : Method) (hm : m = .schema ∨ m = .inlineSchema) (t : Ty) (s s' : Str)
    (h : Returns P m t s) (h' : Returns (renameProgram f P) m t s') :
    (readSchema s = none ↔ readSchema s' = none) ∧
    ∀ z z', readSchema s = some z → readSchema s' = some z' → ∀ v,
      (∀ r, ParsesTo E z v r ↔ ParsesTo E' z' v r) ∧ (Rejects E z v ↔ Rejects E' z' v) := by
  obtain ⟨h1, h2⟩ := renamed_texts (f := f) hg hw hg' hw' hm h h'
  have hL := renamed_linked (f := f) hg hw hg' hw' hE hE'
  refine ⟨by rw [h1]; simp, fun z z' hz hz' v => ?_⟩
  rw [h1, hz, Option.map_some] at hz'
  cases hz'
  have hp := fun n => parse_renamed hL n z (h2 z hz) v
  constructor
  · intro r
    constructor
    · rintro ⟨n, hn⟩; exact ⟨n, by rw [hp n]; exact hn⟩
    · rintro ⟨n, hn⟩; exact ⟨n, by rw [← hp n]; exact hn⟩
  · constructor
    · rintro ⟨n, hn⟩; exact ⟨n, by rw [hp n]; exact hn⟩
    · rintro ⟨n, hn⟩; exact ⟨n, by rw [← hp n]; exact hn⟩

/-- **C87, generation.** Whether generating the text of a type returns does not depend on names. This is about all four methods. -/
theorem C87_returns (f : Str → Str → Str × Str) (P : Program) (m : Method) (t : Ty) :
    (∃ s, Returns P m t s) ↔ ∃ s, Returns (renameProgram f P) m t s :=
  ⟨fun ⟨s, n, hn⟩ => returns_other (otherNames_rename f P) (attrs_rename f P) n m t s hn, fun ⟨s, n, hn⟩ => returns_other (otherNames_back f P) (fun i d d' h h' => (attrs_rename f P i d' d h' h).symm) n m t s hn⟩

/-- **C87, compilation.** The derive macro accepts a declaration under any name or under none. -/
theorem C87_derives (f : Str → Str → Str × Str) (d : Decl) :
    (∃ impl, derive d = .ok impl) ↔ ∃ impl, derive (renameDecl f d) = .ok impl := by
  have h : OtherName d (renameDecl f d) ∧ OtherName (renameDecl f d) d := by
    cases d with
    | struct s => exact ⟨.struct s _ _ s.attrs, .struct { s with ns := (f s.ns s.name).1, name := (f s.ns s.name).2 } s.ns s.name s.attrs⟩
    | enum e => exact ⟨.enum e _ _ e.attrs, .enum { e with ns := (f e.ns e.name).1, name := (f e.ns e.name).2 } e.ns e.name e.attrs⟩
  have ha : (renameDecl f d).attrs = d.attrs := by cases d <;> rfl
  exact ⟨fun ⟨_, hi⟩ => (derive_other h.1 ha hi).imp (fun _ h => h.1), fun ⟨_, hi⟩ => (derive_other h.2 ha.symm hi).imp (fun _ h => h.1)⟩

/-- **C87, the server.** serde accepts the same documents. -/
theorem C87_read (f : Str → Str → Str × Str) (P : Program) (t : Ty) (j : Json) : De P t j ↔ De (renameProgram f P) t j :=
  ⟨de_other (otherNames_rename f P), de_other (otherNames_back f P)⟩

/-! ## The hypotheses are met -/

/-- The types move to the namespace `Api` and get the suffix `Dto`. -/
def exDto (_ name : Str) : Str × Str := (lit "Api", name ++ lit "Dto")

def exMoved : Program := renameProgram exDto exAfter

theorem exMoved_good : GoodNames exMoved := by
  intro d hd
  simp only [exMoved, renameProgram, exAfter, List.map_cons, List.map_nil, List.mem_cons, List.not_mem_nil, or_false] at hd
  rcases hd with rfl | rfl <;> decide +kernel

theorem exMoved_styled : WellStyled exMoved := by
  intro d hd
  simp only [exMoved, renameProgram, exAfter, List.map_cons, List.map_nil, List.mem_cons, List.not_mem_nil, or_false] at hd
  rcases hd with rfl | rfl <;> decide +kernel

theorem exMoved_module : IsModule exMoved (moduleEnv exMoved 9) := by
  refine moduleEnv_isModule exMoved_good exMoved_styled (by unfold DistinctDecls; decide +kernel) ?_
  intro i d hd
  match i, hd with
  | 0, _ => exact ⟨_, rfl⟩
  | 1, _ => exact ⟨_, rfl⟩
  | n + 2, hd => simp [exMoved, renameProgram, exAfter] at hd

/-- The schemas of the user refer to `Ns.Event` and to `Api.EventDto`; the user is accepted by both with the same result. -/
example : ∃ s s' z z', Returns exAfter .schema (.named 0) s ∧ Returns exMoved .schema (.named 0) s' ∧ s ≠ s' ∧
    readSchema s = some z ∧ readSchema s' = some z' ∧ ParsesTo (moduleEnv exAfter 9) z exOldUser exOldUser ∧
    ParsesTo (moduleEnv exMoved 9) z' exOldUser exOldUser := by
  have h0 : ∃ s s', eval exAfter 9 .schema (.named 0) = some s ∧ eval exMoved 9 .schema (.named 0) = some s' ∧ s ≠ s' :=
    ⟨_, _, rfl, rfl, by decide +kernel⟩
  obtain ⟨s, s', hs, hs', hne⟩ := h0
  have hz := (eval_agree exAfter_good exAfter_styled 9 .schema (.named 0) s (Or.inl rfl) hs).read
  have hz' := (eval_agree exMoved_good exMoved_styled 9 .schema (.named 0) s' (Or.inl rfl) hs').read
  have h1 : ∃ z, zOf exAfter 9 .schema (.named 0) = some z ∧ parse (moduleEnv exAfter 9) 9 z exOldUser = some (some exOldUser) :=
    ⟨_, rfl, rfl⟩
  have h2 : ∃ z', zOf exMoved 9 .schema (.named 0) = some z' := ⟨_, rfl⟩
  obtain ⟨z, e, hr⟩ := h1
  obtain ⟨z', e'⟩ := h2
  rw [e] at hz; rw [e'] at hz'
  exact ⟨s, s', z, z', ⟨9, hs⟩, ⟨9, hs'⟩, hne, hz, hz', ⟨9, hr⟩,
    (((C87_same_results exDto exAfter exAfter_good exAfter_styled exMoved_good exMoved_styled _ _ exAfter_module exMoved_module
      .schema (Or.inl rfl) (.named 0) s s' ⟨9, hs⟩ ⟨9, hs'⟩).2 z z' hz hz' exOldUser).1 _).1 ⟨9, hr⟩⟩

example : De exMoved (.named 0) exOldDoc :=
  (C87_read exDto exAfter (.named 0) exOldDoc).1
    ((C78_read exNew exBefore exAfter exBefore_after (.named 0) exOldDoc exOldDoc_lacks).1 exOldDoc_read)

/-- Two types with one name in one namespace: the program is no longer the module of one environment. -/
example : ¬ DistinctDecls (renameProgram (fun _ _ => (lit "Api", lit "Dto")) exAfter) := by
  unfold DistinctDecls; decide +kernel

end Verif.Props
