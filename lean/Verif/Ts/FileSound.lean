import Verif.Ts.ModuleSound
import Verif.Spec.File

/-!
# What is read as a file is one

Statements whose brackets match, followed by the namespaces.
-/

namespace Verif.Spec
open Verif Verif.Js Verif.Ts

theorem Balanced.append {a b : List Tok} (ha : Balanced a) (hb : Balanced b) : Balanced (a ++ b) := by
  induction ha with
  | nil => exact hb
  | tok h _ ih => exact .tok h ih
  | group h h1 _ _ ih =>
    rw [List.append_assoc, List.cons_append]
    exact .group h h1 ih

/-- The text so far, in which these brackets are open. -/
inductive OpenText : List Char → List Tok → Prop
  | nil {ts} : Balanced ts → OpenText [] ts
  | cons {c d o ts ts'} : (c, d) ∈ [('(', ')'), ('[', ']'), ('{', '}')] → OpenText o ts → Balanced ts' →
      OpenText (d :: o) (ts ++ .p c :: ts')

theorem OpenText.more {o : List Char} {ts ts' : List Tok} (h : OpenText o ts) (hb : Balanced ts') : OpenText o (ts ++ ts') := by
  cases h with
  | nil h => exact .nil (h.append hb)
  | cons h1 h2 h3 =>
    rw [List.append_assoc, List.cons_append]
    exact .cons h1 h2 (h3.append hb)

theorem closer_mem {c d : Char} (h : closer c = some d) : (c, d) ∈ [('(', ')'), ('[', ']'), ('{', '}')] := by
  unfold closer at h
  split at h <;> first | (cases h; decide) | cases h

theorem fStep_sound {s s' : FState} {t : Tok} {ts : List Tok} (hi : OpenText s.opened ts) (h : fStep s t = some s') :
    OpenText s'.opened (ts ++ [t]) := by
  have other : (∀ c, t ≠ .p c) → Balanced [t] := by
    intro h
    refine .tok ?_ .nil
    intro hm
    simp only [List.mem_cons, List.not_mem_nil, or_false] at hm
    rcases hm with hm | hm | hm | hm | hm | hm <;> exact h _ hm
  unfold fStep at h
  simp only at h
  split at h
  · rename_i c
    split at h
    · rename_i d hd
      cases h
      exact .cons (closer_mem hd) hi .nil
    · rename_i hd
      split at h
      · rename_i hc
        split at h
        · rename_i d r ho
          split at h
          · rename_i hcd
            cases h
            subst hcd
            rw [ho] at hi
            cases hi with
            | cons h1 h2 h3 =>
              rw [List.append_assoc, List.cons_append]
              exact h2.more (.group h1 h3 .nil)
          · cases h
        · cases h
      · rename_i hc
        cases h
        refine hi.more (.tok ?_ .nil)
        intro hm
        simp only [List.mem_cons, List.not_mem_nil, or_false, Tok.p.injEq] at hm
        rcases hm with rfl | rfl | rfl | rfl | rfl | rfl
        · cases hd
        · exact hc rfl
        · cases hd
        · exact hc rfl
        · cases hd
        · exact hc rfl
  · rename_i w
    have := hi.more (other (by intro c h; cases h))
    split at h
    · rename_i ho _
      cases h
      rw [ho] at this
      exact (by simpa [ho] using this)
    · cases h
      exact this
  · rename_i h1 h2
    cases h
    exact hi.more (other h1)

theorem fRun_sound {D : List TopDecl} {M : List Ns} (n : Nat) : ∀ (fts : List FTok) (s : FState) (pre : List FTok), fts.length ≤ n →
    OpenText s.opened (unmark pre) → fRun s fts = some (D, M) →
    ∃ a b, fts = a ++ b ∧ Balanced (unmark (pre ++ a)) ∧ Namespaces b M := by
  induction n with
  | zero =>
    intro fts s pre hl hi h
    have : fts = [] := by simpa using hl
    subst this
    rw [fRun] at h
    split at h
    · rename_i ho
      cases h
      rw [ho] at hi
      cases hi with
      | nil hb => exact ⟨[], [], rfl, by simpa using hb, .nil⟩
    · cases h
  | succ n ih =>
    have step : ∀ (t : Tok) (nl : Bool) (r : List FTok) (s s' : FState) (pre : List FTok), r.length ≤ n → OpenText s.opened (unmark pre) →
        fStep s t = some s' → fRun s' r = some (D, M) → ∃ a b, (t, nl) :: r = a ++ b ∧ Balanced (unmark (pre ++ a)) ∧ Namespaces b M := by
      intro t nl r s s' pre hl hi hs h
      obtain ⟨a, b, rfl, h1, h2⟩ := ih r s' (pre ++ [(t, nl)]) hl (by rw [unmark_append]; exact fStep_sound hi hs) h
      exact ⟨(t, nl) :: a, b, rfl, by simpa using h1, h2⟩
    intro fts s pre hl hi h
    unfold fRun at h
    split at h
    · split at h
      · rename_i ho
        cases h
        rw [ho] at hi
        cases hi with
        | nil hb => exact ⟨[], [], rfl, by simpa using hb, .nil⟩
      · cases h
    · rename_i w n1 v n2 r
      split at h
      · rename_i hc
        obtain ⟨ho, rfl, rfl⟩ := hc
        split at h
        · rename_i hr
          cases h
          obtain ⟨M', h1, h2⟩ := mRun_sound _ hr
          have h2 : M = M' := h2
          subst h2
          rw [ho] at hi
          cases hi with
          | nil hb => exact ⟨[], _, rfl, by simpa using hb, h1⟩
        · cases h
      · split at h
        · rename_i hs
          exact step _ _ _ _ _ _ (by simp at hl ⊢; omega) hi hs h
        · cases h
    · rename_i t nl r _
      split at h
      · rename_i hs
        exact step _ _ _ _ _ _ (by simp at hl ⊢; omega) hi hs h
      · cases h

/-- What is read as a file is text in which brackets match, followed by the text of the namespaces. -/
theorem readFile_sound {s : Str} {D : List TopDecl} {M : List Ns} (h : readFile s = some (D, M)) :
    ∃ a b, SpellsMarked false s (a ++ b) ∧ Balanced (unmark a) ∧ Namespaces b M := by
  unfold readFile at h
  split at h
  · rename_i ts hs
    obtain ⟨a, b, rfl, h1, h2⟩ := fRun_sound ts.length ts _ [] (Nat.le_refl _) (.nil .nil) h
    exact ⟨a, b, (source_iff _ _).1 hs, h1, h2⟩
  · cases h

end Verif.Spec
