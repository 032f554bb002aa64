import Verif.Zod.Sound

/-!
# The schemas of the generated module
-/

namespace Verif.Zod
open Verif Verif.Js Verif.Schema Verif.Spec Verif.SchemaSpec

theorem envOk_of_module {P : Program} {E : ZEnv} (hg : GoodNames P) (hw : WellStyled P) (h : IsModule P E) :
    EnvOk P E := by
  intro i d z hd hc
  obtain ⟨s, ⟨n, hn⟩, he⟩ := h i d hd
  have := (eval_agree hg hw n .schema (.named i) s (Or.inl rfl) hn).read
  rw [he, this] at hc
  exact ⟨n, hc⟩

/-- An environment computed from the declarations, to depth `n`. -/
def moduleEnv (P : Program) (n : Nat) : ZEnv where
  const ns name := (P.zipIdx.find? (fun p => p.1.ns = ns ∧ p.1.name = name)).bind
    (fun p => zOf P n .schema (.named p.2))

/-- Declarations have different qualified names. -/
def DistinctDecls (P : Program) : Prop := (P.map (fun d => (d.ns, d.name))).Nodup

theorem find_zipIdx {P : List Decl} {k i : Nat} {d : Decl} (hd : DistinctDecls P) (h : P[i]? = some d) :
    (P.zipIdx k).find? (fun p => decide (p.1.ns = d.ns ∧ p.1.name = d.name)) = some (d, k + i) := by
  induction P generalizing k i with
  | nil => simp at h
  | cons a l ih =>
    unfold DistinctDecls at hd
    rw [List.map_cons, List.nodup_cons] at hd
    rw [List.zipIdx_cons, List.find?_cons]
    cases i with
    | zero =>
      simp only [List.getElem?_cons_zero, Option.some.injEq] at h
      subst h
      simp
    | succ i =>
      simp only [List.getElem?_cons_succ] at h
      have hm := List.mem_of_getElem? h
      have hne : ¬(a.ns = d.ns ∧ a.name = d.name) := by
        rintro ⟨h1, h2⟩
        exact hd.1 (List.mem_map.2 ⟨d, hm, by rw [h1, h2]⟩)
      simp only [hne, decide_false]
      rw [ih hd.2 h]
      congr 2
      omega

theorem moduleEnv_isModule {P : Program} {n : Nat} (hg : GoodNames P) (hw : WellStyled P) (hd : DistinctDecls P)
    (hr : ∀ i d, P[i]? = some d → ∃ s, eval P n .schema (.named i) = some s) : IsModule P (moduleEnv P n) := by
  intro i d hi
  obtain ⟨s, hs⟩ := hr i d hi
  refine ⟨s, ⟨n, hs⟩, ?_⟩
  rw [(eval_agree hg hw n .schema (.named i) s (Or.inl rfl) hs).read]
  show ((P.zipIdx 0).find? _).bind _ = _
  rw [find_zipIdx hd hi]
  simp

end Verif.Zod
