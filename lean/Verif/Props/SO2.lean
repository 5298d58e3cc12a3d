import Verif.Proof.SO
import Mathlib.Analysis.SpecialFunctions.Complex.Arg
import Mathlib.Analysis.Real.Pi.Bounds
/-!
# C33: SO2
-/
set_option linter.unusedSectionVars false
namespace TooN.Lie
open Matrix

/-- **C33** `exp(t)` is the exponential of `t` times the generator … -/
theorem c33_exp_is_matrix_exponential (t : ℝ) : so2Exp t = NormedSpace.exp (t • so2Gen) := by
  open scoped Matrix.Norms.Operator in
  have h2 : so2Gen * so2Gen = -1 := by
    ext i j; fin_cases i <;> fin_cases j <;> simp [so2Gen, Matrix.mul_apply, Fin.sum_univ_two]
  have e : ∀ u, so2Exp u = Real.cos u • (1 : M 2) + Real.sin u • so2Gen := by
    intro u; ext i j; fin_cases i <;> fin_cases j <;> simp [so2Exp, so2Gen]
  refine (exp_eq_of_deriv so2Gen so2Exp ?_ (fun u => ?_) t).symm
  · rw [e, Real.cos_zero, Real.sin_zero, one_smul, zero_smul, add_zero]
  · have hF := ((Real.hasDerivAt_cos u).smul_const (1 : M 2)).add ((Real.hasDerivAt_sin u).smul_const so2Gen)
    have : so2Exp = (fun x => Real.cos x • (1 : M 2)) + fun x => Real.sin x • so2Gen := by funext x; exact e x
    rw [this]
    refine hF.congr_deriv ?_
    show _ = so2Gen * (Real.cos u • (1 : M 2) + Real.sin u • so2Gen)
    rw [Matrix.mul_add, Matrix.mul_smul, Matrix.mul_smul, h2, Matrix.mul_one, smul_neg, neg_smul, add_comm]

/-- … a rotation, … -/
theorem c33_exp_is_rotation (t : ℝ) : IsRot (so2Exp t) := by
  have h := Real.sin_sq_add_cos_sq t
  constructor
  · ext i j; fin_cases i <;> fin_cases j <;> simp [so2Exp, Matrix.mul_apply, Fin.sum_univ_two] <;> linarith
  · rw [det_fin_two]; simp [so2Exp]; linarith

/-- … a homomorphism from addition, … -/
theorem c33_exp_add (a b : ℝ) : so2Mul (so2Exp a) (so2Exp b) = so2Exp (a + b) := by
  unfold so2Mul
  ext i j
  fin_cases i <;> fin_cases j <;>
    simp [so2Exp, Matrix.mul_apply, Fin.sum_univ_two, Real.sin_add, Real.cos_add] <;> ring

/-- … and rotates anticlockwise by `t`: it maps the unit x vector to `(cos t, sin t)`. -/
theorem c33_exp_action (t : ℝ) (x y : ℝ) :
    (so2Exp t).mulVec ![x, y] = ![x * Real.cos t - y * Real.sin t, x * Real.sin t + y * Real.cos t] := by
  ext i; fin_cases i <;> simp [so2Exp, Matrix.mulVec, dotProduct, Fin.sum_univ_two] <;> ring

/-- **C33** rotations are closed under the operations and `inverse()` is a two-sided inverse -/
theorem c33_group (a b : M 2) (ha : IsRot a) (hb : IsRot b) :
    IsRot (so2Mul a b) ∧ IsRot (so2Inv a) ∧ so2Mul a (so2Inv a) = 1 ∧ so2Mul (so2Inv a) a = 1 := by
  refine ⟨⟨?_, ?_⟩, ⟨?_, ?_⟩, ha.orth, ha.orth'⟩
  · unfold so2Mul
    rw [transpose_mul, Matrix.mul_assoc, ← Matrix.mul_assoc b, hb.orth, Matrix.one_mul, ha.orth]
  · unfold so2Mul; rw [det_mul, ha.det, hb.det, mul_one]
  · unfold so2Inv; rw [transpose_transpose, ha.orth']
  · unfold so2Inv; rw [det_transpose, ha.det]

/-- **C33** the inverse of `exp(t)` is `exp(-t)` -/
theorem c33_inverse_exp (t : ℝ) : so2Inv (so2Exp t) = so2Exp (-t) := by
  ext i j; fin_cases i <;> fin_cases j <;> simp [so2Inv, so2Exp]

/-- **C33** `ln(exp(t)) = t` on `(-π, π]` -/
theorem c33_ln_exp (t : ℝ) (h : t ∈ Set.Ioc (-Real.pi) Real.pi) : so2Ln (so2Exp t) = t := by
  have := Complex.arg_cos_add_sin_mul_I h
  refine Eq.trans ?_ this
  unfold so2Ln
  congr 1
  apply Complex.ext <;> simp [so2Exp, Complex.cos_ofReal_re, Complex.sin_ofReal_re, Complex.cos_ofReal_im, Complex.sin_ofReal_im]

/-- **C33** and in general the angle reduced modulo a full turn -/
theorem c33_ln_exp_mod (t : ℝ) (k : ℤ) (h : t - k * (2 * Real.pi) ∈ Set.Ioc (-Real.pi) Real.pi) :
    so2Ln (so2Exp t) = t - k * (2 * Real.pi) := by
  rw [← c33_ln_exp _ h]
  have : so2Exp (t - k * (2 * Real.pi)) = so2Exp t := by
    unfold so2Exp; rw [Real.sin_sub_int_mul_two_pi, Real.cos_sub_int_mul_two_pi]
  rw [this]

theorem rot2_form {m : M 2} (h : IsRot m) : m 1 1 = m 0 0 ∧ m 0 1 = -m 1 0 ∧ m 0 0 * m 0 0 + m 1 0 * m 1 0 = 1 := by
  have h1 := congrFun (congrFun h.orth 0) 0
  have h2 := congrFun (congrFun h.orth 0) 1
  have h3 := congrFun (congrFun h.orth 1) 1
  have h4 := h.det
  have g1 := congrFun (congrFun h.orth' 0) 0
  rw [det_fin_two] at h4
  simp [Matrix.mul_apply, Fin.sum_univ_two] at h1 h2 h3 g1
  refine ⟨?_, ?_, g1⟩
  · linear_combination (m 0 0) * h4 + (m 0 1) * h2 - (m 1 1) * h1
  · linear_combination (m 0 0) * h2 - (m 0 1) * h4 - (m 1 0) * h1

/-- **C33** `exp(ln(R)) = R`, and the angle is in `(-π, π]` -/
theorem c33_exp_ln (m : M 2) (h : IsRot m) : so2Exp (so2Ln m) = m ∧ so2Ln m ∈ Set.Ioc (-Real.pi) Real.pi := by
  refine ⟨?_, Complex.arg_mem_Ioc _⟩
  obtain ⟨h1, h2, h3⟩ := rot2_form h
  have hn : ‖(⟨m 0 0, m 1 0⟩ : ℂ)‖ = 1 := by
    rw [Complex.norm_def, Complex.normSq_mk, h3, Real.sqrt_one]
  have hc : Real.cos (so2Ln m) = m 0 0 := by
    have hz : (⟨m 0 0, m 1 0⟩ : ℂ) ≠ 0 := by intro h0; rw [h0, norm_zero] at hn; exact zero_ne_one hn
    unfold so2Ln; rw [Complex.cos_arg hz, hn]; simp
  have hs : Real.sin (so2Ln m) = m 1 0 := by
    unfold so2Ln; rw [Complex.sin_arg, hn]; simp
  ext i j; fin_cases i <;> fin_cases j <;> simp [so2Exp, hc, hs, h1, h2]

/-- **C33** `coerce` on independent rows gives an orthogonal matrix with the orientation of the input and the direction
of its first row; … -/
theorem c33_coerce (m : M 2) (h : m.det ≠ 0) :
    ∃ r, coerce2 m = some r ∧ r * rᵀ = 1 ∧ r.det = (if 0 < m.det then 1 else -1) ∧ ∃ k : ℝ, 0 < k ∧ r 0 = k • m 0 := by
  rw [det_fin_two] at h
  have h0 : m 0 ≠ 0 := by
    intro e
    have e0 := congrFun e 0; have e1 := congrFun e 1
    simp only [Pi.zero_apply] at e0 e1
    rw [e0, e1] at h; simp at h
  obtain ⟨k, hk, hk1, hu⟩ := unitV_of_ne h0
  have hk2 : k * k * (m 0 0 * m 0 0 + m 0 1 * m 0 1) = 1 := by
    simpa [dotProduct, Fin.sum_univ_two] using hk1
  set m1 : V 2 := m 1 - ((k • m 0) ⬝ᵥ m 1) • (k • m 0) with hm1
  have a0 : m1 0 = m 1 0 - (k * m 0 0 * m 1 0 + k * m 0 1 * m 1 1) * (k * m 0 0) := by
    simp [hm1, dotProduct, Fin.sum_univ_two]
  have a1 : m1 1 = m 1 1 - (k * m 0 0 * m 1 0 + k * m 0 1 * m 1 1) * (k * m 0 1) := by
    simp [hm1, dotProduct, Fin.sum_univ_two]
  have hd : m 0 0 * m1 1 - m 0 1 * m1 0 = m 0 0 * m 1 1 - m 0 1 * m 1 0 := by rw [a0, a1]; ring
  have h1 : m1 ≠ 0 := by
    intro e
    have e0 := congrFun e 0; have e1 := congrFun e 1
    simp only [Pi.zero_apply] at e0 e1
    rw [e0, e1] at hd; apply h; rw [← hd]; ring
  obtain ⟨l, hl, hl1, hv⟩ := unitV_of_ne h1
  have hl2 : l * l * (m1 0 * m1 0 + m1 1 * m1 1) = 1 := by simpa [dotProduct, Fin.sum_univ_two] using hl1
  have hperp : m 0 0 * m1 0 + m 0 1 * m1 1 = 0 := by
    rw [a0, a1]; linear_combination (-(m 0 0 * m 1 0 + m 0 1 * m 1 1)) * hk2
  refine ⟨Matrix.of ![k • m 0, l • m1], ?_, ?_, ?_, k, hk, rfl⟩
  · unfold coerce2
    rw [hu, Option.bind_some]
    simp only
    rw [← hm1, hv]; rfl
  · ext i j
    fin_cases i <;> fin_cases j <;> simp [Matrix.mul_apply, Fin.sum_univ_two]
    · linear_combination hk2
    · linear_combination (k * l) * hperp
    · linear_combination (k * l) * hperp
    · linear_combination hl2
  · rw [det_fin_two, det_fin_two]
    simp
    set D := m 0 0 * m 1 1 - m 0 1 * m 1 0 with hD
    have e : k * m 0 0 * (l * m1 1) - k * m 0 1 * (l * m1 0) = k * l * D := by rw [← hd]; ring
    have e2 : (k * l * D) * (k * l * D) = 1 := by
      have : D * D = (m 0 0 * m 0 0 + m 0 1 * m 0 1) * (m1 0 * m1 0 + m1 1 * m1 1) := by
        rw [← hd]; linear_combination (-(m 0 0 * m1 0 + m 0 1 * m1 1)) * hperp
      calc (k * l * D) * (k * l * D) = k * k * (l * l) * (D * D) := by ring
        _ = (k * k * (m 0 0 * m 0 0 + m 0 1 * m 0 1)) * (l * l * (m1 0 * m1 0 + m1 1 * m1 1)) := by rw [this]; ring
        _ = 1 := by rw [hk2, hl2, mul_one]
    rw [e]
    rcases mul_self_eq_one_iff.1 e2 with e3 | e3
    · rw [if_pos]
      · exact e3
      · have : 0 < k * l * D := by rw [e3]; norm_num
        have hkl : 0 < k * l := mul_pos hk hl
        have := (pos_iff_pos_of_mul_pos this).1 hkl
        linarith
    · rw [if_neg]
      · exact e3
      · intro hp
        have h0 : 0 < D := by linarith
        have : 0 < k * l * D := by positivity
        linarith

/-- … it leaves rotations alone, … -/
theorem c33_coerce_rotation (m : M 2) (h : m * mᵀ = 1) : coerce2 m = some m := by
  have h1 : m 0 ⬝ᵥ m 0 = 1 := congrFun (congrFun h 0) 0
  have h2 : m 0 ⬝ᵥ m 1 = 0 := congrFun (congrFun h 0) 1
  have h3 : m 1 ⬝ᵥ m 1 = 1 := congrFun (congrFun h 1) 1
  unfold coerce2
  rw [unitV_of_unit h1, Option.bind_some]
  simp only
  rw [h2, zero_smul, sub_zero, unitV_of_unit h3, Option.map_some]
  congr 1
  ext i j; fin_cases i <;> rfl

/-- … and divides by zero exactly on dependent rows. -/
theorem c33_coerce_fails_iff (m : M 2) : coerce2 m = none ↔ m.det = 0 := by
  constructor
  · intro h; by_contra hd
    obtain ⟨r, e, -⟩ := c33_coerce m hd
    rw [e] at h; nomatch h
  · intro hd
    rw [det_fin_two] at hd
    unfold coerce2
    by_cases h0 : m 0 = 0
    · rw [h0, unitV_zero]; rfl
    obtain ⟨k, hk, hk1, hu⟩ := unitV_of_ne h0
    have hk2 : k * k * (m 0 0 * m 0 0 + m 0 1 * m 0 1) = 1 := by
      simpa [dotProduct, Fin.sum_univ_two] using hk1
    rw [hu, Option.bind_some]
    simp only
    rw [(unitV_eq_none _).2]
    · rfl
    · ext i; fin_cases i <;> simp [dotProduct, Fin.sum_univ_two]
      · linear_combination (-(m 1 0)) * hk2 - k * k * m 0 1 * hd
      · linear_combination (-(m 1 1)) * hk2 + k * k * m 0 0 * hd

/-- **C33** the documented "makes sure it is a valid rotation matrix" is false: a reflection is accepted as it is. -/
theorem c33_coerce_reflection_wrong :
    coerce2 !![1, 0; 0, -1] = some !![1, 0; 0, -1] ∧ ¬ IsRot (!![1, 0; 0, -1] : M 2) := by
  constructor
  · apply c33_coerce_rotation
    ext i j; fin_cases i <;> fin_cases j <;> simp [Matrix.mul_apply, Fin.sum_univ_two]
  · intro h
    have := h.det
    rw [det_fin_two] at this
    simp at this
    norm_num at this

example : IsRot (so2Exp 1) ∧ (1:ℝ) ∈ Set.Ioc (-Real.pi) Real.pi ∧ (!![1, 2; 3, 4] : M 2).det ≠ 0 :=
  ⟨c33_exp_is_rotation 1, ⟨by linarith [Real.pi_gt_three], by linarith [Real.pi_gt_three]⟩, by rw [det_fin_two]; simp; norm_num⟩

end TooN.Lie
