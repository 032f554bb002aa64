/-!
# JavaScript numbers

JavaScript numbers are IEEE 754 doubles. A finite number is represented by its rational value (a superset of
the doubles; `-0` and `0` are the same here). `roundNat` is the rounding of an integer literal to the nearest
double, ties to even (ECMA-262, "The Number Type"); integers this large are at most 2^128 here, so overflow
to infinity is not modelled.
-/

namespace Verif.Js

/-- Numbers of JavaScript. -/
inductive JsNum where
  | fin (q : Rat)
  | posInf
  | negInf
  | nan
  deriving DecidableEq

/-- Round to the nearest multiple of `u`, ties to an even multiple. -/
def roundTo (u n : Nat) : Nat :=
  let q := n / u
  let r := n % u
  if 2 * r < u then q * u
  else if u < 2 * r then (q + 1) * u
  else if q % 2 = 0 then q * u
  else (q + 1) * u

/-- The double nearest to a natural number: 53 significant bits. -/
def roundNat (n : Nat) : Nat :=
  if n < 2 ^ 53 then n else roundTo (2 ^ (n.log2 - 52)) n

/-- The double nearest to an integer. -/
def roundInt (i : Int) : Int :=
  if 0 ≤ i then (roundNat i.toNat : Int) else -(roundNat (-i).toNat : Int)

/-! ## Rounding is monotone -/

theorem roundTo_le {u n : Nat} (hu : 0 < u) {k : Nat} (h : n ≤ k * u) : roundTo u n ≤ k * u := by
  unfold roundTo
  have hq : n / u ≤ k := by
    rw [Nat.mul_comm] at h
    exact Nat.div_le_of_le_mul h
  have hn := Nat.div_add_mod n u
  have hmul : (n / u) * u ≤ k * u := Nat.mul_le_mul_right u hq
  have hcase : n / u = k → n % u = 0 := by
    intro e
    rw [e, Nat.mul_comm] at hn
    omega
  have hsucc : n / u ≠ k → (n / u + 1) * u ≤ k * u := fun e => Nat.mul_le_mul_right u (by omega)
  simp only
  by_cases e : n / u = k
  · have := hcase e
    rw [this, e]
    simp [hu]
  · have := hsucc e
    split
    · exact hmul
    · split
      · exact this
      · split
        · exact hmul
        · exact this

theorem le_roundTo {u n : Nat} (hu : 0 < u) {k : Nat} (h : k * u ≤ n) : k * u ≤ roundTo u n := by
  unfold roundTo
  have hq : k ≤ n / u := (Nat.le_div_iff_mul_le hu).2 h
  have hmul : k * u ≤ (n / u) * u := Nat.mul_le_mul_right u hq
  have hsucc : k * u ≤ (n / u + 1) * u := Nat.mul_le_mul_right u (by omega)
  simp only
  split
  · exact hmul
  · split
    · exact hsucc
    · split
      · exact hmul
      · exact hsucc

theorem roundTo_mono {u n m : Nat} (hu : 0 < u) (h : n ≤ m) : roundTo u n ≤ roundTo u m := by
  have hq : n / u ≤ m / u := Nat.div_le_div_right h
  by_cases e : n / u = m / u
  · have hn := Nat.div_add_mod n u
    have hm := Nat.div_add_mod m u
    have hr : n % u ≤ m % u := by rw [e] at hn; omega
    have hs : m / u * u ≤ (m / u + 1) * u := Nat.mul_le_mul_right u (by omega)
    unfold roundTo
    simp only
    rw [e]
    repeat' split
    all_goals first | omega | exact hs | exact Nat.le_refl _
  · have h1 : roundTo u n ≤ (n / u + 1) * u := by
      refine roundTo_le hu ?_
      have := Nat.div_add_mod n u
      have := Nat.mod_lt n hu
      rw [Nat.add_mul, Nat.one_mul, Nat.mul_comm (n / u) u]
      omega
    have h2 : (m / u) * u ≤ roundTo u m := le_roundTo hu (Nat.div_mul_le_self m u)
    have h3 : (n / u + 1) * u ≤ (m / u) * u := Nat.mul_le_mul_right u (by omega)
    omega

theorem roundNat_small {n : Nat} (h : n < 2 ^ 53) : roundNat n = n := by
  unfold roundNat; rw [if_pos h]

theorem log2_ge {n : Nat} (h : 2 ^ 53 ≤ n) : 53 ≤ n.log2 := by
  have hn : n ≠ 0 := by intro e; rw [e] at h; simp at h
  exact (Nat.le_log2 hn).2 h

theorem roundNat_bounds {n : Nat} (h : 2 ^ 53 ≤ n) :
    2 ^ n.log2 ≤ roundNat n ∧ roundNat n ≤ 2 ^ (n.log2 + 1) := by
  have hn : n ≠ 0 := by intro e; rw [e] at h; simp at h
  have hl := log2_ge h
  unfold roundNat
  rw [if_neg (by omega)]
  have hu : 0 < 2 ^ (n.log2 - 52) := Nat.pow_pos (by decide)
  have e1 : 2 ^ n.log2 = 2 ^ 52 * 2 ^ (n.log2 - 52) := by rw [← Nat.pow_add]; congr 1; omega
  have e2 : 2 ^ (n.log2 + 1) = 2 ^ 53 * 2 ^ (n.log2 - 52) := by rw [← Nat.pow_add]; congr 1; omega
  constructor
  · rw [e1]; refine le_roundTo hu ?_; rw [← e1]; exact Nat.log2_self_le hn
  · rw [e2]; refine roundTo_le hu ?_; rw [← e2]; exact Nat.le_of_lt Nat.lt_log2_self

/-- Rounding to double is monotone. -/
theorem roundNat_mono {n m : Nat} (h : n ≤ m) : roundNat n ≤ roundNat m := by
  by_cases hm : m < 2 ^ 53
  · rw [roundNat_small hm, roundNat_small (by omega)]; exact h
  · have hm : 2 ^ 53 ≤ m := by omega
    have hm0 : m ≠ 0 := by intro e; rw [e] at hm; simp at hm
    by_cases hn : n < 2 ^ 53
    · rw [roundNat_small hn]
      have := (roundNat_bounds hm).1
      have h2 : 2 ^ 53 ≤ 2 ^ m.log2 := Nat.pow_le_pow_right (by decide) (log2_ge hm)
      omega
    · have hn : 2 ^ 53 ≤ n := by omega
      have hn0 : n ≠ 0 := by intro e; rw [e] at hn; simp at hn
      have hlog : n.log2 ≤ m.log2 := (Nat.le_log2 hm0).2 (Nat.le_trans (Nat.log2_self_le hn0) h)
      by_cases e : n.log2 = m.log2
      · unfold roundNat
        rw [if_neg (by omega), if_neg (by omega), e]
        exact roundTo_mono (Nat.pow_pos (by decide)) h
      · have h1 := (roundNat_bounds hn).2
        have h2 := (roundNat_bounds hm).1
        have h3 : 2 ^ (n.log2 + 1) ≤ 2 ^ m.log2 := Nat.pow_le_pow_right (by decide) (by omega)
        omega

theorem roundInt_mono {i j : Int} (h : i ≤ j) : roundInt i ≤ roundInt j := by
  unfold roundInt
  split
  · rw [if_pos (by omega)]
    exact Int.ofNat_le.2 (roundNat_mono (by omega))
  · split
    · have : (0 : Int) ≤ (roundNat j.toNat : Int) := Int.natCast_nonneg _
      have : (0 : Int) ≤ (roundNat (-i).toNat : Int) := Int.natCast_nonneg _
      omega
    · exact Int.neg_le_neg (Int.ofNat_le.2 (roundNat_mono (by omega)))

theorem roundInt_small {i : Int} (h : -(2 ^ 53) < i) (h' : i < 2 ^ 53) : roundInt i = i := by
  unfold roundInt
  split
  · rw [roundNat_small (by omega)]; omega
  · rw [roundNat_small (by omega)]; omega

theorem roundInt_zero : roundInt 0 = 0 := by decide

theorem roundInt_nonneg {i : Int} (h : 0 ≤ i) : 0 ≤ roundInt i := by
  have := roundInt_mono h
  rw [roundInt_zero] at this
  exact this

example : roundInt 18446744073709551615 = 18446744073709551616 := by decide
example : roundInt 9007199254740993 = 9007199254740992 := by decide

end Verif.Js
