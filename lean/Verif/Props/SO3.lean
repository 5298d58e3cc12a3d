import Verif.Proof.SO3
import Mathlib.Analysis.Real.Pi.Bounds
/-!
# C34: SO3 exp, group operations, adjoint
-/
set_option linter.unusedSectionVars false
namespace TooN.Lie
open Matrix

/-- **C34** generator `i` is the matrix of `x ↦ eᵢ × x`; the linear combination is that of `x ↦ w × x`;
`generator_field` is the product with the generator -/
theorem c34_generators (w x : V 3) (i : Fin 3) :
    (so3Gen i).mulVec x = crossV (Pi.single i 1) x ∧ (∑ i, w i • so3Gen i).mulVec x = crossV w x ∧
    so3GenField i x = (so3Gen i).mulVec x := by
  refine ⟨?_, ?_, ?_⟩
  · have : so3Gen i = skew (Pi.single i 1) := by
      ext r c
      fin_cases i <;> fin_cases r <;> fin_cases c <;> simp [so3Gen, skew]
    rw [this, skew_mulVec]
  · rw [gen_sum, skew_mulVec]
  · ext r
    fin_cases i <;> fin_cases r <;> simp [so3Gen, so3GenField, Matrix.mulVec, dotProduct, Fin.sum_univ_three]

theorem sqrt_dot (w : V 3) : Real.sqrt (w ⬝ᵥ w) * Real.sqrt (w ⬝ᵥ w) = w 0 * w 0 + w 1 * w 1 + w 2 * w 2 := by
  rw [Real.mul_self_sqrt (dot_self_nonneg w), dot3]

/-- **C34** outside the Taylor branches `exp` is the exponential of the linear combination of the generators -/
theorem c34_exp_is_matrix_exponential (w : V 3) (h : 1e-6 ≤ w ⬝ᵥ w) :
    so3Exp w = NormedSpace.exp (∑ i, w i • so3Gen i) := by
  have hp : 0 < w ⬝ᵥ w := lt_of_lt_of_le (by norm_num) h
  have hs := Real.sqrt_pos.2 hp
  rw [gen_sum, exp_skew w (Real.sqrt (w ⬝ᵥ w)) (sqrt_dot w) hs.ne']
  unfold so3Exp so3Coeff
  rw [rodrigues_eq]
  simp only
  rw [if_neg (not_lt.2 (le_trans (by norm_num) h)), if_neg (not_lt.2 h)]
  generalize Real.sqrt (w ⬝ᵥ w) = θ at *
  have e1 : Real.sin θ * (1.0 / θ) = Real.sin θ / θ := by norm_num; ring
  have e2 : (1 - Real.cos θ) * (1.0 / θ * (1.0 / θ)) = (1 - Real.cos θ) / (θ * θ) := by norm_num; ring
  simp only [e1, e2]

/-- each coefficient's absolute error, times the power of the angle it multiplies -/
theorem coeff_error (w : V 3) (h0 : w ≠ 0) :
    let θ := Real.sqrt (w ⬝ᵥ w)
    |((so3Coeff w).1 - Real.sin θ / θ) * θ| ≤ 1e-17 ∧ |((so3Coeff w).2 - (1 - Real.cos θ) / (θ * θ)) * (θ * θ)| ≤ 1e-17 := by
  intro θ
  have hp : 0 < θ := Real.sqrt_pos.2 (dot_self_pos h0)
  have hsq : w ⬝ᵥ w = θ * θ := (Real.mul_self_sqrt (dot_self_nonneg w)).symm
  have e1 : ∀ A, (A - Real.sin θ / θ) * θ = A * θ - Real.sin θ := by intro A; field_simp
  have e2 : ∀ B, (B - (1 - Real.cos θ) / (θ * θ)) * (θ * θ) = B * (θ * θ) - (1 - Real.cos θ) := by
    intro B; field_simp
  rw [e1, e2]
  unfold so3Coeff
  simp only
  rw [hsq]
  by_cases c1 : θ * θ < 1e-8
  · rw [if_pos c1]
    have hθ : θ < 1e-4 := by
      by_contra hc; push Not at hc
      have := mul_le_mul hc hc (by norm_num) hp.le
      norm_num at this c1; linarith
    obtain ⟨tc, ts⟩ := taylor6 (x := θ) (by rw [abs_of_pos hp]; linarith)
    have h2 : θ ^ 2 ≤ 1e-8 := by nlinarith
    have h4 : θ ^ 4 ≤ 1e-16 := by
      have := mul_le_mul h2 h2 (by positivity) (by norm_num)
      calc θ ^ 4 = θ ^ 2 * θ ^ 2 := by ring
        _ ≤ _ := this
        _ = 1e-16 := by norm_num
    have h5 : θ ^ 5 ≤ 1e-20 := by
      have := mul_le_mul h4 hθ.le hp.le (by norm_num)
      calc θ ^ 5 = θ ^ 4 * θ := by ring
        _ ≤ _ := this
        _ = 1e-20 := by norm_num
    have h6 : θ ^ 6 ≤ 1e-24 := by
      have := mul_le_mul h5 hθ.le hp.le (by norm_num)
      calc θ ^ 6 = θ ^ 5 * θ := by ring
        _ ≤ _ := this
        _ = 1e-24 := by norm_num
    have p4 : 0 ≤ θ ^ 4 := by positivity
    have p5 : 0 ≤ θ ^ 5 := by positivity
    rw [abs_le] at tc ts ⊢
    rw [abs_le]
    norm_num at h4 h5 h6 ⊢
    refine ⟨⟨?_, ?_⟩, ⟨?_, ?_⟩⟩ <;> nlinarith [tc.1, tc.2, ts.1, ts.2]
  · rw [if_neg c1]
    by_cases c2 : θ * θ < 1e-6
    · rw [if_pos c2]
      have hθ : θ < 1e-3 := by
        by_contra hc; push Not at hc
        have := mul_le_mul hc hc (by norm_num) hp.le
        norm_num at this c2; linarith
      obtain ⟨tc, ts⟩ := taylor6 (x := θ) (by rw [abs_of_pos hp]; linarith)
      have h2 : θ ^ 2 ≤ 1e-6 := by nlinarith
      have h6 : θ ^ 6 ≤ 1e-18 := by
        have h4 := mul_le_mul h2 h2 (by positivity) (by norm_num)
        have := mul_le_mul h4 h2 (by positivity) (by norm_num)
        calc θ ^ 6 = θ ^ 2 * θ ^ 2 * θ ^ 2 := by ring
          _ ≤ _ := this
          _ = 1e-18 := by norm_num
      rw [abs_le] at tc ts ⊢
      rw [abs_le]
      norm_num at h6 ⊢
      refine ⟨⟨?_, ?_⟩, ⟨?_, ?_⟩⟩ <;> nlinarith [tc.1, tc.2, ts.1, ts.2]
    · rw [if_neg c2]
      have z1 : Real.sin (Real.sqrt (θ * θ)) * (1.0 / Real.sqrt (θ * θ)) * θ - Real.sin θ = 0 := by
        rw [Real.sqrt_mul_self hp.le]; norm_num; field_simp; ring
      have z2 : (1 - Real.cos (Real.sqrt (θ * θ))) * (1.0 / Real.sqrt (θ * θ) * (1.0 / Real.sqrt (θ * θ))) * (θ * θ) -
          (1 - Real.cos θ) = 0 := by
        rw [Real.sqrt_mul_self hp.le]; norm_num; field_simp; ring
      simp only at z1 z2 ⊢
      rw [z1, z2, abs_zero]
      norm_num

/-- **C34** in every branch each entry of `exp(w)` is within `2·10⁻¹⁷` of the matrix exponential (a double's unit roundoff
is `1.1·10⁻¹⁶`) -/
theorem c34_exp_error (w : V 3) (i j : Fin 3) :
    |so3Exp w i j - (NormedSpace.exp (∑ i, w i • so3Gen i) : M 3) i j| ≤ 2e-17 := by
  rw [gen_sum]
  by_cases h0 : w = 0
  · subst h0
    have e : skew 0 = 0 := by ext i j; fin_cases i <;> fin_cases j <;> simp [skew]
    rw [e, NormedSpace.exp_zero]
    unfold so3Exp
    rw [rodrigues_eq, e]
    simp
    norm_num
  obtain ⟨ea, eb⟩ := coeff_error w h0
  have hp : 0 < Real.sqrt (w ⬝ᵥ w) := Real.sqrt_pos.2 (dot_self_pos h0)
  rw [exp_skew w (Real.sqrt (w ⬝ᵥ w)) (sqrt_dot w) hp.ne']
  unfold so3Exp
  rw [rodrigues_eq]
  have hθ := sqrt_dot w
  generalize Real.sqrt (w ⬝ᵥ w) = θ at *
  generalize (so3Coeff w).1 = A at *
  generalize (so3Coeff w).2 = B at *
  generalize Real.sin θ / θ = A' at *
  generalize (1 - Real.cos θ) / (θ * θ) = B' at *
  have key : ∀ x y : ℝ, |x| ≤ θ → |y| ≤ θ * θ → |(A - A') * x + (B - B') * y| ≤ 2e-17 := by
    intro x y hx hy
    have k1 : |(A - A') * x| ≤ 1e-17 := by
      rw [abs_mul] at ea ⊢
      rw [abs_of_pos hp] at ea
      exact le_trans (mul_le_mul_of_nonneg_left hx (abs_nonneg _)) ea
    have k2 : |(B - B') * y| ≤ 1e-17 := by
      rw [abs_mul] at eb ⊢
      rw [abs_of_pos (mul_pos hp hp)] at eb
      exact le_trans (mul_le_mul_of_nonneg_left hy (abs_nonneg _)) eb
    have := abs_add_le ((A - A') * x) ((B - B') * y)
    norm_num at *; linarith
  have hsub : (1 + A • skew w + B • (skew w * skew w)) i j - (1 + A' • skew w + B' • (skew w * skew w)) i j =
      (A - A') * skew w i j + (B - B') * (skew w * skew w) i j := by
    simp [Matrix.add_apply]; ring
  rw [hsub]
  have q0 := mul_self_nonneg (w 0)
  have q1 := mul_self_nonneg (w 1)
  have q2 := mul_self_nonneg (w 2)
  have b0 : |w 0| ≤ θ := abs_le_of_sq_le_sq (by nlinarith) hp.le
  have b1 : |w 1| ≤ θ := abs_le_of_sq_le_sq (by nlinarith) hp.le
  have b2 : |w 2| ≤ θ := abs_le_of_sq_le_sq (by nlinarith) hp.le
  have bm : ∀ x y : ℝ, |x| ≤ θ → |y| ≤ θ → |x| * |y| ≤ θ * θ := by
    intro x y hx hy; exact mul_le_mul hx hy (abs_nonneg _) hp.le
  apply key
  · fin_cases i <;> fin_cases j <;> simp [skew, hp.le, b0, b1, b2]
  · fin_cases i <;> fin_cases j <;> simp [skew, Matrix.mul_apply, Fin.sum_univ_three]
    · rw [abs_le]; constructor <;> nlinarith
    · rw [mul_comm]; exact bm _ _ b0 b1
    · rw [mul_comm]; exact bm _ _ b0 b2
    · exact bm _ _ b0 b1
    · rw [abs_le]; constructor <;> nlinarith
    · rw [mul_comm]; exact bm _ _ b1 b2
    · exact bm _ _ b0 b2
    · exact bm _ _ b1 b2
    · rw [abs_le]; constructor <;> nlinarith

/-- **C34** outside the Taylor branches (and at zero) `exp(w)` is a rotation -/
theorem c34_exp_is_rotation (w : V 3) (h : w = 0 ∨ 1e-6 ≤ w ⬝ᵥ w) : IsRot (so3Exp w) := by
  rcases h with rfl | h
  · unfold so3Exp
    apply rodrigues_rot
    simp
  apply rodrigues_rot
  have hp : 0 < w ⬝ᵥ w := lt_of_lt_of_le (by norm_num) h
  have hs := Real.sqrt_pos.2 hp
  have hq := Real.mul_self_sqrt hp.le
  unfold so3Coeff
  simp only
  rw [if_neg (not_lt.2 (le_trans (by norm_num) h)), if_neg (not_lt.2 h)]
  simp only
  have := Real.sin_sq_add_cos_sq (Real.sqrt (w ⬝ᵥ w))
  generalize w ⬝ᵥ w = q at *
  generalize Real.sqrt q = θ at *
  subst hq
  generalize Real.sin θ = S at *
  generalize Real.cos θ = C at *
  norm_num
  field_simp
  linear_combination this

/-- the exact rotation about `w` -/
theorem exp_skew_rot (w : V 3) : IsRot (NormedSpace.exp (skew w)) := by
  by_cases h0 : w = 0
  · subst h0
    have e : skew 0 = 0 := by ext i j; fin_cases i <;> fin_cases j <;> simp [skew]
    rw [e, NormedSpace.exp_zero]; exact ⟨by simp, by simp⟩
  have hp := dot_self_pos h0
  have hs := Real.sqrt_pos.2 hp
  have hq := Real.mul_self_sqrt hp.le
  rw [exp_skew w _ (sqrt_dot w) hs.ne', ← rodrigues_eq]
  apply rodrigues_rot
  have := Real.sin_sq_add_cos_sq (Real.sqrt (w ⬝ᵥ w))
  generalize w ⬝ᵥ w = q at *
  generalize Real.sqrt q = θ at *
  subst hq
  field_simp
  linear_combination this

/-- **C34** in the Taylor branches the result is not exactly orthogonal; how far it is off -/
theorem c34_orthogonality_defect (w : V 3) (i j : Fin 3) :
    |(so3Exp w * (so3Exp w)ᵀ) i j - (1 : M 3) i j| ≤ 2e-16 := by
  have hr := exp_skew_rot w
  have he : ∀ i j, |so3Exp w i j - (NormedSpace.exp (skew w) : M 3) i j| ≤ 2e-17 := by
    intro i j; have := c34_exp_error w i j; rwa [gen_sum] at this
  generalize (NormedSpace.exp (skew w) : M 3) = R at *
  generalize so3Exp w = E at *
  rw [← hr.orth]
  have hR : ∀ i j, |R i j| ≤ 1 := by
    intro i j
    have := congrFun (congrFun hr.orth i) i
    simp [Matrix.mul_apply, Fin.sum_univ_three] at this
    apply abs_le_of_sq_le_sq _ zero_le_one
    have := mul_self_nonneg (R i 0); have := mul_self_nonneg (R i 1); have := mul_self_nonneg (R i 2)
    fin_cases j <;> simp only [one_pow, pow_two] <;> first | exact (by linarith : R i 0 * R i 0 ≤ 1 * 1) | exact (by linarith : R i 1 * R i 1 ≤ 1 * 1) | exact (by linarith : R i 2 * R i 2 ≤ 1 * 1)
  have hk : ∀ k, |E i k * E j k - R i k * R j k| ≤ 5e-17 := by
    intro k
    have h1 := he i k; have h2 := he j k
    have : E i k * E j k - R i k * R j k = (E i k - R i k) * (E j k - R j k) + (E i k - R i k) * R j k + R i k * (E j k - R j k) := by
      ring
    rw [this]
    have a1 : |(E i k - R i k) * (E j k - R j k)| ≤ 2e-17 * 2e-17 := by
      rw [abs_mul]; exact mul_le_mul h1 h2 (abs_nonneg _) (by norm_num)
    have a2 : |(E i k - R i k) * R j k| ≤ 2e-17 * 1 := by
      rw [abs_mul]; exact mul_le_mul h1 (hR _ _) (abs_nonneg _) (by norm_num)
    have a3 : |R i k * (E j k - R j k)| ≤ 1 * 2e-17 := by
      rw [abs_mul]; exact mul_le_mul (hR _ _) h2 (abs_nonneg _) (by norm_num)
    have s1 := abs_add_le ((E i k - R i k) * (E j k - R j k) + (E i k - R i k) * R j k) (R i k * (E j k - R j k))
    have s2 := abs_add_le ((E i k - R i k) * (E j k - R j k)) ((E i k - R i k) * R j k)
    norm_num at *; linarith
  have e : (E * Eᵀ) i j - (R * Rᵀ) i j = (E i 0 * E j 0 - R i 0 * R j 0) + (E i 1 * E j 1 - R i 1 * R j 1) +
      (E i 2 * E j 2 - R i 2 * R j 2) := by
    simp [Matrix.mul_apply, Fin.sum_univ_three]; ring
  rw [e]
  have s1 := abs_add_le ((E i 0 * E j 0 - R i 0 * R j 0) + (E i 1 * E j 1 - R i 1 * R j 1)) (E i 2 * E j 2 - R i 2 * R j 2)
  have s2 := abs_add_le (E i 0 * E j 0 - R i 0 * R j 0) (E i 1 * E j 1 - R i 1 * R j 1)
  have k0 := hk 0; have k1 := hk 1; have k2 := hk 2
  norm_num at *; linarith

/-- **C34** in every branch `exp(w)` fixes the axis `w`, and `exp(-w)` is the transpose -/
theorem c34_exp_axis_and_negation (w : V 3) : (so3Exp w).mulVec w = w ∧ so3Exp (-w) = so3Inv (so3Exp w) := by
  constructor
  · unfold so3Exp
    ext i; fin_cases i <;> simp [rodrigues, Matrix.mulVec, dotProduct, Fin.sum_univ_three] <;> ring
  · have : so3Coeff (-w) = so3Coeff w := by unfold so3Coeff; simp only [neg_dotProduct, dotProduct_neg, neg_neg]
    unfold so3Exp so3Inv
    rw [this]
    ext i j; fin_cases i <;> fin_cases j <;> simp [rodrigues]
    all_goals ring

/-- **C34** rotations are closed under the operations and `inverse()` is a two-sided inverse -/
theorem c34_group (a b : M 3) (ha : IsRot a) (hb : IsRot b) :
    IsRot (so3Mul a b) ∧ IsRot (so3Inv a) ∧ so3Mul a (so3Inv a) = 1 ∧ so3Mul (so3Inv a) a = 1 := by
  refine ⟨⟨?_, ?_⟩, ⟨?_, ?_⟩, ha.orth, ha.orth'⟩
  · unfold so3Mul
    rw [transpose_mul, Matrix.mul_assoc, ← Matrix.mul_assoc b, hb.orth, Matrix.one_mul, ha.orth]
  · unfold so3Mul; rw [det_mul, ha.det, hb.det, mul_one]
  · unfold so3Inv; rw [transpose_transpose, ha.orth']
  · unfold so3Inv; rw [det_transpose, ha.det]

/-- the adjugate of a rotation is its transpose -/
theorem rot3_cofactors {m : M 3} (h : IsRot m) : adjugate m = mᵀ := by
  have h1 : m * adjugate m = 1 := by rw [mul_adjugate, h.det, one_smul]
  calc adjugate m = (mᵀ * m) * adjugate m := by rw [h.orth', Matrix.one_mul]
    _ = mᵀ := by rw [Matrix.mul_assoc, h1, Matrix.mul_one]

/-- a rotation commutes with the cross product -/
theorem rot_cross {m : M 3} (h : IsRot m) (a b : V 3) : m.mulVec (crossV a b) = crossV (m.mulVec a) (m.mulVec b) := by
  have hc := rot3_cofactors h
  have c : ∀ i j, m j i = adjugate m i j := fun i j => by rw [hc]; rfl
  have c00 := c 0 0; have c01 := c 0 1; have c02 := c 0 2
  have c10 := c 1 0; have c11 := c 1 1; have c12 := c 1 2
  have c20 := c 2 0; have c21 := c 2 1; have c22 := c 2 2
  rw [adjugate_fin_three] at c00 c01 c02 c10 c11 c12 c20 c21 c22
  simp at c00 c01 c02 c10 c11 c12 c20 c21 c22
  ext i
  fin_cases i <;> simp [crossV, Matrix.mulVec, dotProduct, Fin.sum_univ_three]
  · linear_combination (a 1 * b 2 - a 2 * b 1) * c00 + (a 2 * b 0 - a 0 * b 2) * c10 + (a 0 * b 1 - a 1 * b 0) * c20
  · linear_combination (a 1 * b 2 - a 2 * b 1) * c01 + (a 2 * b 0 - a 0 * b 2) * c11 + (a 0 * b 1 - a 1 * b 0) * c21
  · linear_combination (a 1 * b 2 - a 2 * b 1) * c02 + (a 2 * b 0 - a 0 * b 2) * c12 + (a 0 * b 1 - a 1 * b 0) * c22

theorem rot_skew {m : M 3} (h : IsRot m) (w : V 3) : skew (m.mulVec w) = m * skew w * mᵀ := by
  have e : skew (m.mulVec w) * m = m * skew w := by
    apply Matrix.ext_of_mulVec_single
    intro i
    rw [← mulVec_mulVec, ← mulVec_mulVec, skew_mulVec, skew_mulVec, rot_cross h]
  rw [← e, Matrix.mul_assoc, h.orth, Matrix.mul_one]

theorem rot_dot {n : Nat} {m : M n} (h : IsRot m) (a b : V n) : m.mulVec a ⬝ᵥ m.mulVec b = a ⬝ᵥ b := by
  rw [dotProduct_mulVec, vecMul_mulVec, ← dotProduct_mulVec, h.orth', one_mulVec]

/-- **C34** the defining property of `adjoint`, in every branch: `R exp(v) R⁻¹ = exp(adjoint(v))` -/
theorem c34_adjoint (m : M 3) (h : IsRot m) (v : V 3) :
    so3Mul (so3Mul m (so3Exp v)) (so3Inv m) = so3Exp (so3Adjoint m v) := by
  have hc : so3Coeff (m.mulVec v) = so3Coeff v := by unfold so3Coeff; rw [rot_dot h]
  unfold so3Mul so3Inv so3Adjoint so3Exp
  rw [hc, rodrigues_eq, rodrigues_eq, rot_skew h]
  have e : m * skew v * mᵀ * (m * skew v * mᵀ) = m * (skew v * skew v) * mᵀ := by
    calc _ = m * skew v * (mᵀ * m) * skew v * mᵀ := by simp only [Matrix.mul_assoc]
      _ = _ := by rw [h.orth', Matrix.mul_one]; simp only [Matrix.mul_assoc]
  rw [e]
  simp only [Matrix.mul_add, Matrix.add_mul, Matrix.mul_one, h.orth, Matrix.mul_smul, Matrix.smul_mul]

example : (1e-6 : ℝ) ≤ (![0, 3, 4] : V 3) ⬝ᵥ ![0, 3, 4] ∧ IsRot (so3Exp ![0, 3, 4]) := by
  have : (1e-6 : ℝ) ≤ (![0, 3, 4] : V 3) ⬝ᵥ ![0, 3, 4] := by rw [dot3]; simp; norm_num
  exact ⟨this, c34_exp_is_rotation _ (Or.inr this)⟩

end TooN.Lie
