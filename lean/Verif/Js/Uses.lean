import Verif.Js.Parser

/-!
# The identifiers an expression refers to
-/

namespace Verif.Js
open Verif

/-- The identifiers that occur in an expression, each with the property that is read off it directly, if any:
`Ns.Name` is `(Ns, some Name)`. -/
def JsExpr.uses : JsExpr → List (Str × Option Str)
  | .member (.var x) m => [(x, some m)]
  | .var x => [(x, none)]
  | .num _ => []
  | .str _ => []
  | .member e _ => e.uses
  | .call f args => f.uses ++ usesL args
  | .arrow e => e.uses
  | .arr es => usesL es
  | .obj _ vals => usesL vals
  | .spread e => e.uses
where
  usesL : List JsExpr → List (Str × Option Str)
    | [] => []
    | e :: r => e.uses ++ usesL r

theorem mem_usesL {u : Str × Option Str} {es : List JsExpr} :
    u ∈ JsExpr.uses.usesL es ↔ ∃ e ∈ es, u ∈ e.uses := by
  induction es with
  | nil => simp [JsExpr.uses.usesL]
  | cons e r ih => simp [JsExpr.uses.usesL, ih]

/-- The expression uses `z`, and names `x.y` with `Q x y`, and nothing else. -/
def UsesOk (Q : Str → Str → Prop) (e : JsExpr) : Prop :=
  ∀ u ∈ e.uses, u.1 = lit "z" ∨ ∃ y, u.2 = some y ∧ Q u.1 y

variable {Q : Str → Str → Prop}

theorem UsesOk.member {e : JsExpr} (h : UsesOk Q e) (m : Str) : UsesOk Q (.member e m) := by
  cases e with
  | var x =>
    intro u hu
    simp only [JsExpr.uses, List.mem_singleton] at hu
    subst hu
    rcases h (x, none) (by simp [JsExpr.uses]) with h | ⟨y, h, _⟩
    · exact Or.inl h
    · cases h
  | _ => exact h

theorem UsesOk.call {f : JsExpr} {es : List JsExpr} (hf : UsesOk Q f) (h : ∀ e ∈ es, UsesOk Q e) :
    UsesOk Q (.call f es) := by
  intro u hu
  simp only [JsExpr.uses, List.mem_append, mem_usesL] at hu
  rcases hu with hu | ⟨e, he, hu⟩
  · exact hf u hu
  · exact h e he u hu

theorem UsesOk.arr {es : List JsExpr} (h : ∀ e ∈ es, UsesOk Q e) : UsesOk Q (.arr es) := by
  intro u hu
  simp only [JsExpr.uses, mem_usesL] at hu
  obtain ⟨e, he, hu⟩ := hu
  exact h e he u hu

theorem UsesOk.obj {ks : List Str} {es : List JsExpr} (h : ∀ e ∈ es, UsesOk Q e) : UsesOk Q (.obj ks es) := by
  intro u hu
  simp only [JsExpr.uses, mem_usesL] at hu
  obtain ⟨e, he, hu⟩ := hu
  exact h e he u hu

theorem UsesOk.str (s : Str) : UsesOk Q (.str s) := fun u hu => by cases hu

theorem UsesOk.z (m : Str) : UsesOk Q (.member (.var (lit "z")) m) := by
  intro u hu
  simp only [JsExpr.uses, List.mem_singleton] at hu
  subst hu
  exact Or.inl rfl

theorem UsesOk.ref {x y : Str} (h : Q x y) : UsesOk Q (.arrow (.member (.var x) y)) := by
  intro u hu
  simp only [JsExpr.uses, List.mem_singleton] at hu
  subst hu
  exact Or.inr ⟨y, rfl, h⟩

theorem UsesOk.one {e : JsExpr} (h : UsesOk Q e) : ∀ x ∈ [e], UsesOk Q x := by
  intro x hx
  rw [List.mem_singleton] at hx
  subst hx
  exact h

theorem UsesOk.two {e e' : JsExpr} (h : UsesOk Q e) (h' : UsesOk Q e') : ∀ x ∈ [e, e'], UsesOk Q x := by
  intro x hx
  simp only [List.mem_cons, List.not_mem_nil, or_false] at hx
  rcases hx with rfl | rfl
  · exact h
  · exact h'

end Verif.Js
