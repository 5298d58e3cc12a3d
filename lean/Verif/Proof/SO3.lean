import Verif.Proof.SO
import Mathlib.Analysis.Complex.Exponential
import Mathlib.Analysis.SpecialFunctions.Trigonometric.Inverse
/-!
# Facts about three-dimensional rotations
-/
set_option linter.unusedSectionVars false
namespace TooN.Lie
open Matrix

/-- Taylor bounds of order six -/
theorem taylor6 {x : ℝ} (hx : |x| ≤ 1) :
    |Real.cos x - (1 - x ^ 2 / 2 + x ^ 4 / 24)| ≤ x ^ 6 * (7 / 4320) ∧
    |Real.sin x - (x - x ^ 3 / 6 + x ^ 5 / 120)| ≤ x ^ 6 * (7 / 4320) := by
  have h := Complex.exp_bound (x := x * Complex.I) (by simpa using hx) (n := 6) (by norm_num)
  have hn : ‖(x : ℂ) * Complex.I‖ ^ 6 = x ^ 6 := by
    rw [norm_mul, Complex.norm_I, mul_one, Complex.norm_real, Real.norm_eq_abs]
    exact Even.pow_abs ⟨3, rfl⟩ x
  rw [hn] at h
  have hs : ∑ m ∈ Finset.range 6, ((x : ℂ) * Complex.I) ^ m / (m.factorial : ℂ) =
      ((1 - x ^ 2 / 2 + x ^ 4 / 24 : ℝ) : ℂ) + ((x - x ^ 3 / 6 + x ^ 5 / 120 : ℝ) : ℂ) * Complex.I := by
    have i2 : Complex.I ^ 2 = -1 := Complex.I_sq
    have i3 : Complex.I ^ 3 = -Complex.I := by rw [pow_succ, i2]; ring
    have i4 : Complex.I ^ 4 = 1 := Complex.I_pow_four
    have i5 : Complex.I ^ 5 = Complex.I := by rw [pow_succ, i4, one_mul]
    simp only [Finset.sum_range_succ, Finset.sum_range_zero, mul_pow, i2, i3, i4, i5]
    simp only [Nat.factorial]
    push_cast
    ring
  rw [hs, Complex.exp_mul_I, ← Complex.ofReal_cos, ← Complex.ofReal_sin] at h
  have hc : (7:ℝ) / 4320 = ((Nat.succ 6 : ℕ) : ℝ) * (((Nat.factorial 6 : ℕ) : ℝ) * ((6 : ℕ) : ℝ))⁻¹ := by
    simp [Nat.factorial]; norm_num
  rw [hc]
  constructor
  · refine le_trans ?_ h
    have := Complex.abs_re_le_norm ((Real.cos x : ℂ) + (Real.sin x : ℂ) * Complex.I -
      (((1 - x ^ 2 / 2 + x ^ 4 / 24 : ℝ) : ℂ) + ((x - x ^ 3 / 6 + x ^ 5 / 120 : ℝ) : ℂ) * Complex.I))
    refine le_trans (le_of_eq ?_) this
    congr 1
    simp [-Complex.ofReal_cos, -Complex.ofReal_sin, -Complex.ofReal_sub, -Complex.ofReal_add, -Complex.ofReal_div, -Complex.ofReal_pow]
  · refine le_trans ?_ h
    have := Complex.abs_im_le_norm ((Real.cos x : ℂ) + (Real.sin x : ℂ) * Complex.I -
      (((1 - x ^ 2 / 2 + x ^ 4 / 24 : ℝ) : ℂ) + ((x - x ^ 3 / 6 + x ^ 5 / 120 : ℝ) : ℂ) * Complex.I))
    refine le_trans (le_of_eq ?_) this
    congr 1
    simp [-Complex.ofReal_cos, -Complex.ofReal_sin, -Complex.ofReal_sub, -Complex.ofReal_add, -Complex.ofReal_div, -Complex.ofReal_pow]

theorem dot3 (a b : V 3) : a ⬝ᵥ b = a 0 * b 0 + a 1 * b 1 + a 2 * b 2 := by
  simp [dotProduct, Fin.sum_univ_three]

theorem gen_sum (w : V 3) : ∑ i, w i • so3Gen i = skew w := by
  ext i j
  fin_cases i <;> fin_cases j <;> simp [skew, so3Gen, Fin.sum_univ_three, Matrix.add_apply]

theorem rodrigues_eq (w : V 3) (A B : ℝ) : rodrigues w A B = 1 + A • skew w + B • (skew w * skew w) := by
  ext i j
  fin_cases i <;> fin_cases j <;> simp [skew, rodrigues, Matrix.mul_apply, Fin.sum_univ_three] <;> ring

theorem skew_mulVec (w x : V 3) : (skew w).mulVec x = crossV w x := by
  ext i
  fin_cases i <;> simp [skew, crossV, Matrix.mulVec, dotProduct, Fin.sum_univ_three] <;> ring

/-- the matrix is a rotation if `(Aθ)² + (1 - Bθ²)² = 1` -/
theorem rodrigues_rot (w : V 3) (A B : ℝ) (h : A * A * (w ⬝ᵥ w) + (1 - B * (w ⬝ᵥ w)) * (1 - B * (w ⬝ᵥ w)) = 1) :
    IsRot (rodrigues w A B) := by
  rw [dot3] at h
  by_cases hw : w 0 * w 0 + w 1 * w 1 + w 2 * w 2 = 0
  · have h0 : w 0 = 0 := by nlinarith [mul_self_nonneg (w 0), mul_self_nonneg (w 1), mul_self_nonneg (w 2)]
    have h1 : w 1 = 0 := by nlinarith [mul_self_nonneg (w 0), mul_self_nonneg (w 1), mul_self_nonneg (w 2)]
    have h2 : w 2 = 0 := by nlinarith [mul_self_nonneg (w 0), mul_self_nonneg (w 1), mul_self_nonneg (w 2)]
    have : rodrigues w A B = 1 := by
      ext i j; fin_cases i <;> fin_cases j <;> simp [rodrigues, h0, h1, h2]
    rw [this]; exact ⟨by simp, by simp⟩
  have h' : A * A = 2 * B - B * B * (w 0 * w 0 + w 1 * w 1 + w 2 * w 2) := by
    apply mul_right_cancel₀ hw; linear_combination h
  constructor
  · ext i j
    fin_cases i <;> fin_cases j <;> simp [rodrigues, Matrix.mul_apply, Fin.sum_univ_three]
    · linear_combination (w 1 * w 1 + w 2 * w 2) * h'
    · linear_combination (-(w 0 * w 1)) * h'
    · linear_combination (-(w 0 * w 2)) * h'
    · linear_combination (-(w 0 * w 1)) * h'
    · linear_combination (w 0 * w 0 + w 2 * w 2) * h'
    · linear_combination (-(w 1 * w 2)) * h'
    · linear_combination (-(w 0 * w 2)) * h'
    · linear_combination (-(w 1 * w 2)) * h'
    · linear_combination (w 0 * w 0 + w 1 * w 1) * h'
  · rw [det_fin_three]
    simp [rodrigues]
    linear_combination h

end TooN.Lie
