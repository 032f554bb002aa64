import Verif.Zod.Parse

/-!
# Number schemas
-/

namespace Verif.Zod
open Verif Verif.Js

theorem rat_of_den_one {q : Rat} (h : q.den = 1) : q = (q.num : Rat) := by
  apply Rat.ext
  · rfl
  · rw [h]; rfl

theorem accepts_number {E : ZEnv} {cs : List NumCheck} {v : JsVal} :
    Accepts E (.number cs) v ↔ ∃ x, v = .num x ∧ x ≠ .nan ∧ cs.all (NumCheck.ok x) = true := by
  constructor
  · rintro ⟨r, n, h⟩
    cases n with
    | zero => cases h
    | succ n =>
      cases v with
      | num x =>
        refine ⟨x, rfl, ?_, ?_⟩
        · intro e; subst e; simp [parse] at h
        · cases hc : cs.all (NumCheck.ok x) with
          | true => rfl
          | false => cases x <;> simp [parse, hc] at h
      | _ => simp [parse] at h
  · rintro ⟨x, rfl, hx, hc⟩
    refine ⟨.num x, 1, ?_⟩
    cases x with
    | nan => exact absurd rfl hx
    | _ => simp [parse, hc]

theorem int_mem (v : JsVal) (p : Int → Prop) (cs : List NumCheck)
    (h : ∀ i : Int, cs.all (NumCheck.ok (.fin (i : Rat))) = true ↔ p i) :
    (∃ x, v = JsVal.num x ∧ x ≠ .nan ∧ (NumCheck.finite :: NumCheck.int :: cs).all (NumCheck.ok x) = true) ↔
      ∃ i : Int, p i ∧ v = .num (.fin (i : Rat)) := by
  constructor
  · rintro ⟨x, rfl, _, hc⟩
    simp only [List.all_cons, Bool.and_eq_true] at hc
    obtain ⟨h1, h2, h3⟩ := hc
    cases x with
    | fin q =>
      have hq : q.den = 1 := by simpa [NumCheck.ok] using h2
      rw [rat_of_den_one hq] at h3 ⊢
      exact ⟨q.num, (h _).1 h3, rfl⟩
    | _ => simp [NumCheck.ok] at h1
  · rintro ⟨i, hi, rfl⟩
    refine ⟨_, rfl, by simp, ?_⟩
    simp only [List.all_cons, Bool.and_eq_true]
    refine ⟨rfl, ?_, (h i).2 hi⟩
    simp [NumCheck.ok]

/-- `.finite().int().nonnegative().lte(hi)`. -/
theorem accepts_unsigned {E : ZEnv} {hi : Int} {v : JsVal} :
    Accepts E (.number [.finite, .int, .gte 0, .lte hi]) v ↔
      ∃ i : Int, (0 ≤ i ∧ i ≤ hi) ∧ v = .num (.fin (i : Rat)) := by
  rw [accepts_number]
  refine int_mem v (fun i => 0 ≤ i ∧ i ≤ hi) _ fun i => ?_
  simp only [NumCheck.ok, List.all_cons, List.all_nil, Bool.and_true, Bool.and_eq_true, decide_eq_true_eq]
  rw [Rat.intCast_le_intCast, Rat.intCast_le_intCast]

/-- `.finite().int().lte(hi).gte(lo)`. -/
theorem accepts_signed {E : ZEnv} {lo hi : Int} {v : JsVal} :
    Accepts E (.number [.finite, .int, .lte hi, .gte lo]) v ↔
      ∃ i : Int, (lo ≤ i ∧ i ≤ hi) ∧ v = .num (.fin (i : Rat)) := by
  rw [accepts_number]
  refine int_mem v (fun i => lo ≤ i ∧ i ≤ hi) _ fun i => ?_
  simp only [NumCheck.ok, List.all_cons, List.all_nil, Bool.and_true, Bool.and_eq_true, decide_eq_true_eq]
  rw [Rat.intCast_le_intCast, Rat.intCast_le_intCast, and_comm]

theorem accepts_natural {E : ZEnv} {v : JsVal} :
    Accepts E (.number [.finite, .int, .gte 0]) v ↔
      ∃ i : Int, (0 ≤ i) ∧ v = .num (.fin (i : Rat)) := by
  rw [accepts_number]
  refine int_mem v (fun i => 0 ≤ i) _ fun i => ?_
  simp only [NumCheck.ok, List.all_cons, List.all_nil, Bool.and_true, decide_eq_true_eq]
  rw [Rat.intCast_le_intCast]

theorem accepts_integer {E : ZEnv} {v : JsVal} :
    Accepts E (.number [.finite, .int]) v ↔ ∃ i : Int, True ∧ v = .num (.fin (i : Rat)) := by
  rw [accepts_number]
  exact int_mem v (fun _ => True) [] (fun i => by simp)

end Verif.Zod
