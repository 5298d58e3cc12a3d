import Verif.Props.SE3Ln
import Verif.Props.SO2
/-!
# C38, C39 for SE2: adjoint, exponential, logarithm
-/
set_option linter.unusedSectionVars false
namespace TooN.Lie
open Matrix

theorem blk_three (X : M 2) (t : V 2) :
    blk X t = !![X 0 0, X 0 1, t 0; X 1 0, X 1 1, t 1; 0, 0, 0] := by
  ext i j; fin_cases i <;> fin_cases j <;> rfl

/-- the linear combination of the generators, as a block matrix -/
theorem se2_gen_sum (v : V 3) : ∑ i, v i • se2Gen i = blk (v 2 • !![0, -1; 1, 0]) ![v 0, v 1] := by
  rw [blk_three]
  ext i j
  rw [Fin.sum_univ_three]
  fin_cases i <;> fin_cases j <;> simp [se2Gen, put, Matrix.add_apply]

/-- **C39** (SE2) generator 0, 1 is translation along the axis, 2 is anticlockwise rotation (velocity of a point) -/
theorem c39_se2_generators (v : V 3) (x y w : ℝ) :
    (∑ i, v i • se2Gen i).mulVec ![x, y, w] = ![w * v 0 - v 2 * y, w * v 1 + v 2 * x, 0] := by
  rw [se2_gen_sum, blk_three]
  funext i
  fin_cases i <;> simp [mulVec, dotProduct, Fin.sum_univ_three] <;> ring

theorem rot_J {m : M 2} (h : IsRot m) : m * !![0, -1; 1, 0] = !![0, -1; 1, 0] * m := by
  obtain ⟨h1, h2, -⟩ := rot2_form h
  ext i j; fin_cases i <;> fin_cases j <;> simp [Matrix.mul_apply, Fin.sum_univ_two, h1, h2]

/-- **C38** (SE2) conjugating a linear combination of generators gives the one with `adjoint` coordinates … -/
theorem c38_se2_adjoint_algebra (a : SE 2) (h : IsRot a.R) (v : V 3) :
    a.mat * (∑ i, v i • se2Gen i) * a.inv.mat = ∑ i, (se2Adjoint a v) i • se2Gen i := by
  rw [se2_gen_sum, se2_gen_sum, SE.mat, SE.mat, hom_mul_blk, blk_mul_hom, aug_inj]
  simp only [SE.inv]
  have e : a.R * (v 2 • !![0, -1; 1, 0]) * a.Rᵀ = v 2 • !![0, -1; 1, 0] := by
    rw [Matrix.mul_smul, rot_J h, Matrix.smul_mul, Matrix.mul_assoc, h.orth, Matrix.mul_one]
  constructor
  · rw [e]; simp [se2Adjoint]
  · rw [mulVec_neg, mulVec_mulVec, e]
    funext i
    fin_cases i <;> simp [se2Adjoint, mulVec, dotProduct, Fin.sum_univ_two] <;> ring

/-- … so `A exp(v) A⁻¹ = exp(adjoint(v))` for the matrix exponential -/
theorem c38_se2_adjoint_exponential (a : SE 2) (h : IsRot a.R) (v : V 3) :
    a.mat * NormedSpace.exp (∑ i, v i • se2Gen i) * a.inv.mat = NormedSpace.exp (∑ i, (se2Adjoint a v) i • se2Gen i) := by
  rw [← c38_se2_adjoint_algebra a h]
  obtain ⟨h1, h2, h3⟩ := c37_inverse a h
  rw [h3]
  have hu : IsUnit a.mat := by
    rw [Matrix.isUnit_iff_isUnit_det]
    apply Matrix.isUnit_det_of_left_inverse (B := a.inv.mat)
    rw [← c37_mul_is_matrix_product, h2, SE.mat, hom_one]
  open scoped Matrix.Norms.Operator in
  exact (Matrix.exp_conj _ _ hu).symm

/-- **C38** (SE2) `adjoint` is linear, multiplicative, and the adjoint of the inverse undoes it -/
theorem c38_se2_adjoint_hom (a b : SE 2) (h : IsRot a.R) (v u : V 3) (c : ℝ) :
    se2Adjoint (SE.mul a b) v = se2Adjoint a (se2Adjoint b v) ∧
    se2Adjoint a.inv (se2Adjoint a v) = v ∧ se2Adjoint a (v + c • u) = se2Adjoint a v + c • se2Adjoint a u := by
  have key : ∀ x : V 2, a.R 1 0 * x 1 = -(a.R 0 1 * x 1) ∧ a.R 1 1 * x 0 = a.R 0 0 * x 0 := by
    intro x
    obtain ⟨h1, h2, -⟩ := rot2_form h
    constructor
    · rw [h2]; ring
    · rw [h1]
  obtain ⟨h1, h2, h3⟩ := rot2_form h
  refine ⟨?_, ?_, ?_⟩
  · funext i
    fin_cases i <;> simp [se2Adjoint, SE.mul, mulVec, dotProduct, Fin.sum_univ_two, Matrix.mul_apply, h1, h2] <;> ring
  · funext i
    fin_cases i <;> simp [se2Adjoint, SE.inv, mulVec, dotProduct, Fin.sum_univ_two, h1, h2]
    · linear_combination (v 0) * h3
    · linear_combination (v 1) * h3
  · funext i
    fin_cases i <;> simp [se2Adjoint, mulVec, dotProduct, Fin.sum_univ_two] <;> ring

theorem se2_matOf (a : SE 2) (v : V 3) : (matOf (se2Adjoint a)).mulVec v = se2Adjoint a v := by
  funext i
  simp only [mulVec, dotProduct, matOf, Fin.sum_univ_three]
  fin_cases i <;>
    simp [se2Adjoint, mulVec, dotProduct, Fin.sum_univ_two, Pi.single_apply] <;> ring

/-- **C38** (SE2) the matrix form is `Ad M Adᵀ`, where `Ad` is the matrix of `adjoint` -/
theorem c38_se2_matrix_form (a : SE 2) (m : M 3) :
    (∀ v, (matOf (se2Adjoint a)).mulVec v = se2Adjoint a v) ∧
    se2AdjointM a m = matOf (se2Adjoint a) * m * (matOf (se2Adjoint a))ᵀ :=
  ⟨se2_matOf a, colsRows_eq _ (se2_matOf a) m⟩

/-- the translation of the exponential: `A u + B W u` with `W u = θ (-u₁, u₀)` -/
theorem se2_exp_eq (v : V 3) (h : v 2 ≠ 0) :
    NormedSpace.exp (∑ i, v i • se2Gen i) = (⟨so2Exp (v 2),
      (Real.sin (v 2) / v 2) • ![v 0, v 1] + ((1 - Real.cos (v 2)) / (v 2 * v 2)) • ![-v 2 * v 1, v 2 * v 0]⟩ : SE 2).mat := by
  rw [se2_gen_sum, exp_blk_rigid _ (v 2) h, SE.mat, hom_inj]
  · constructor
    · ext i j; fin_cases i <;> fin_cases j <;> simp [so2Exp, Matrix.mul_apply, Fin.sum_univ_two] <;> field_simp <;> ring
    · funext i; fin_cases i <;> simp [mulVec, dotProduct, Matrix.mul_apply, Fin.sum_univ_two] <;> field_simp <;> ring
  · ext i j; fin_cases i <;> fin_cases j <;> simp [Matrix.mul_apply, Fin.sum_univ_two] <;> ring

/-- the two coefficients of `SE2::exp` -/
noncomputable def se2Coeff (θ : ℝ) : ℝ × ℝ :=
  if θ * θ < 1e-8 then (1, 0.5) else
  if θ * θ < 1e-6 then (1.0 - θ * θ * (1.0 / 6.0) * (1.0 - 1.0 / 20.0 * (θ * θ)), 0.5 - 0.25 * (1.0 / 6.0) * (θ * θ))
  else (Real.sin θ / θ, (1 - Real.cos θ) / (θ * θ))

theorem se2Exp_eq (v : V 3) : se2Exp v = ⟨so2Exp (v 2),
    (se2Coeff (v 2)).1 • ![v 0, v 1] + (se2Coeff (v 2)).2 • ![-v 2 * v 1, v 2 * v 0]⟩ := by
  unfold se2Exp se2Coeff
  by_cases c1 : v 2 * v 2 < 1e-8
  · simp only [if_pos c1, one_smul]
  · simp only [if_neg c1]
    by_cases c2 : v 2 * v 2 < 1e-6
    · simp only [if_pos c2]
    · simp only [if_neg c2]
      have h0 : v 2 ≠ 0 := by intro h0; rw [h0] at c1; norm_num at c1
      have e1 : so2Exp (v 2) 1 0 * (1.0 / v 2) = Real.sin (v 2) / v 2 := by simp [so2Exp]; norm_num; field_simp
      have e2 : (1 - so2Exp (v 2) 0 0) * (1.0 / v 2 * (1.0 / v 2)) = (1 - Real.cos (v 2)) / (v 2 * v 2) := by
        simp [so2Exp]; norm_num; field_simp
      rw [e1, e2]

/-- **C39** (SE2) outside the Taylor branches, and for pure translations, `exp` is the matrix exponential of the linear
combination of the generators -/
theorem c39_se2_exp_is_matrix_exponential (v : V 3) (h : 1e-6 ≤ v 2 * v 2 ∨ v 2 = 0) :
    (se2Exp v).mat = NormedSpace.exp (∑ i, v i • se2Gen i) := by
  rcases h with h | h
  · have c1 : ¬ v 2 * v 2 < 1e-6 := not_lt.2 h
    have c0 : ¬ v 2 * v 2 < 1e-8 := by intro h0; apply c1; norm_num at *; linarith
    have h0 : v 2 ≠ 0 := by intro h0; rw [h0] at c0; norm_num at c0
    rw [se2_exp_eq v h0, se2Exp_eq]
    simp only [se2Coeff, if_neg c0, if_neg c1]
  · rw [se2_gen_sum, h, zero_smul, exp_blk_trans, se2Exp_eq, SE.mat, hom_inj, h]
    constructor
    · ext i j; fin_cases i <;> fin_cases j <;> simp [so2Exp]
    · have : (0:ℝ) * 0 < 1e-8 := by norm_num
      simp only [se2Coeff, if_pos this]
      funext i; fin_cases i <;> simp

/-- **C39** (SE2) the exponential of a pure translation is that translation, and the rotation of `exp` is `SO2::exp` -/
theorem c39_se2_exp_pure (x y θ : ℝ) (v : V 3) :
    se2Exp ![x, y, 0] = ⟨1, ![x, y]⟩ ∧ se2Exp ![0, 0, θ] = ⟨so2Exp θ, 0⟩ ∧ (se2Exp v).R = so2Exp (v 2) := by
  refine ⟨?_, ?_, by rw [se2Exp_eq]⟩
  · rw [← SE.mat_inj, c39_se2_exp_is_matrix_exponential _ (Or.inr rfl), se2_gen_sum, SE.mat]
    simp only [Matrix.cons_val, zero_smul]
    rw [exp_blk_trans]
  · rw [se2Exp_eq]
    have : (![(0:ℝ), 0, θ]) 2 = θ := rfl
    rw [this, SE.ext_iff]
    refine ⟨rfl, ?_⟩
    funext i; fin_cases i <;> simp

theorem abs_sub_div_le {A s θ e : ℝ} (h0 : θ ≠ 0) (h : |A * θ - s| ≤ e * |θ|) : |A - s / θ| ≤ e := by
  have : A - s / θ = (A * θ - s) / θ := by field_simp
  rw [this, abs_div, div_le_iff₀ (abs_pos.2 h0)]; exact h

theorem abs_sub_div_le2 {A s θ e : ℝ} (h0 : θ ≠ 0) (h : |A * (θ * θ) - s| ≤ e * |θ|) : |A - s / (θ * θ)| * |θ| ≤ e := by
  have : A - s / (θ * θ) = (A * (θ * θ) - s) / (θ * θ) := by field_simp
  have hp := abs_pos.2 h0
  rw [this, abs_div, abs_mul θ θ, div_mul_eq_mul_div, div_le_iff₀ (mul_pos hp hp)]
  have := mul_le_mul_of_nonneg_right h hp.le
  rwa [mul_assoc e] at this

theorem pow_bounds {y c : ℝ} (h0 : 0 ≤ y) (h : y ≤ c) :
    y ^ 3 ≤ c ^ 2 * y ∧ y ^ 4 ≤ c ^ 3 * y ∧ y ^ 5 ≤ c ^ 4 * y ∧ y ^ 6 ≤ c ^ 5 * y := by
  have k : ∀ n, y ^ (n + 1) ≤ c ^ n * y := fun n => by
    rw [pow_succ]; exact mul_le_mul_of_nonneg_right (pow_le_pow_left₀ h0 h n) h0
  exact ⟨k 2, k 3, k 4, k 5⟩

theorem lin2_bound {e dA dB θ : ℝ} (p q : ℝ) (h1 : |dA| ≤ e) (h2 : |dB| * |θ| ≤ e) :
    |dA * p + dB * (θ * q)| ≤ e * (|p| + |q|) := by
  refine (abs_add_le _ _).trans ?_
  rw [abs_mul, abs_mul, abs_mul, ← mul_assoc, mul_add]
  exact add_le_add (mul_le_mul_of_nonneg_right h1 (abs_nonneg p)) (mul_le_mul_of_nonneg_right h2 (abs_nonneg q))

/-- how far the coefficients of the Taylor branches are from the series -/
theorem se2Coeff_error (θ : ℝ) (h0 : θ ≠ 0) (h1 : θ * θ < 1e-6) :
    |(se2Coeff θ).1 - Real.sin θ / θ| ≤ 2e-9 ∧ |(se2Coeff θ).2 - (1 - Real.cos θ) / (θ * θ)| * |θ| ≤ 1e-12 ∧
    (1e-8 ≤ θ * θ → |(se2Coeff θ).1 - Real.sin θ / θ| ≤ 1e-17 ∧ |(se2Coeff θ).2 - (1 - Real.cos θ) / (θ * θ)| * |θ| ≤ 1e-17) := by
  have hx : |θ| ≤ 1 / 1000 := by
    apply abs_le_of_sq_le_sq _ (by norm_num); norm_num at h1 ⊢; nlinarith
  obtain ⟨tc, ts⟩ := taylor6 (x := θ) (by linarith)
  have hp : 0 < |θ| := abs_pos.2 h0
  have e2 : θ ^ 2 = |θ| ^ 2 := (sq_abs θ).symm
  have e4 : θ ^ 4 = |θ| ^ 4 := by rw [show θ ^ 4 = (θ ^ 2) ^ 2 by ring, e2]; ring
  have e6 : θ ^ 6 = |θ| ^ 6 := by rw [show θ ^ 6 = (θ ^ 2) ^ 3 by ring, e2]; ring
  have e3 : |θ ^ 3| = |θ| ^ 3 := abs_pow θ 3
  have e5 : |θ ^ 5| = |θ| ^ 5 := abs_pow θ 5
  rw [e6] at tc ts
  by_cases c : θ * θ < 1e-8
  · have hy : |θ| ≤ 1 / 10000 := by
      apply abs_le_of_sq_le_sq _ (by norm_num); norm_num at c ⊢; nlinarith
    have b := pow_bounds hp.le hy
    refine ⟨abs_sub_div_le h0 ?_, abs_sub_div_le2 h0 ?_, fun hc => absurd c (not_lt.2 hc)⟩
    · simp only [se2Coeff, if_pos c]
      have : 1 * θ - Real.sin θ = θ ^ 3 / 6 - θ ^ 5 / 120 - (Real.sin θ - (θ - θ ^ 3 / 6 + θ ^ 5 / 120)) := by ring
      rw [this]
      have t1 := abs_sub (θ ^ 3 / 6 - θ ^ 5 / 120) (Real.sin θ - (θ - θ ^ 3 / 6 + θ ^ 5 / 120))
      have t2 := abs_sub (θ ^ 3 / 6) (θ ^ 5 / 120)
      rw [abs_div, abs_div, e3, e5, abs_of_pos (by norm_num : (0:ℝ) < 6), abs_of_pos (by norm_num : (0:ℝ) < 120)] at t2
      norm_num at b ⊢
      linarith [b.1, b.2.1, b.2.2.1, b.2.2.2]
    · simp only [se2Coeff, if_pos c]
      have : (0.5:ℝ) * (θ * θ) - (1 - Real.cos θ) = |θ| ^ 4 / 24 + (Real.cos θ - (1 - θ ^ 2 / 2 + θ ^ 4 / 24)) := by
        rw [← e4]; norm_num; ring
      rw [this]
      have t1 := abs_add_le (|θ| ^ 4 / 24) (Real.cos θ - (1 - θ ^ 2 / 2 + θ ^ 4 / 24))
      rw [abs_of_nonneg (by positivity : 0 ≤ |θ| ^ 4 / 24)] at t1
      norm_num at b ⊢
      linarith [b.1, b.2.1, b.2.2.1, b.2.2.2]
  · have b := pow_bounds hp.le hx
    have k1 : |(se2Coeff θ).1 - Real.sin θ / θ| ≤ 1e-17 := by
      apply abs_sub_div_le h0
      simp only [se2Coeff, if_neg c, if_pos h1]
      have : (1.0 - θ * θ * (1.0 / 6.0) * (1.0 - 1.0 / 20.0 * (θ * θ))) * θ - Real.sin θ =
          -(Real.sin θ - (θ - θ ^ 3 / 6 + θ ^ 5 / 120)) := by norm_num; ring
      rw [this, abs_neg]
      norm_num at b ⊢
      linarith [b.1, b.2.1, b.2.2.1, b.2.2.2]
    have k2 : |(se2Coeff θ).2 - (1 - Real.cos θ) / (θ * θ)| * |θ| ≤ 1e-17 := by
      apply abs_sub_div_le2 h0
      simp only [se2Coeff, if_neg c, if_pos h1]
      have : (0.5 - 0.25 * (1.0 / 6.0) * (θ * θ)) * (θ * θ) - (1 - Real.cos θ) =
          Real.cos θ - (1 - θ ^ 2 / 2 + θ ^ 4 / 24) := by norm_num; ring
      rw [this]
      norm_num at b ⊢
      linarith [b.1, b.2.1, b.2.2.1, b.2.2.2]
    exact ⟨k1.trans (by norm_num), k2.trans (by norm_num), fun _ => ⟨k1, k2⟩⟩

/-- **C39** (SE2) inside the Taylor branches the rotation is still exact and the translation is within `2·10⁻⁹` (within
`10⁻¹⁷` for `θ² ≥ 10⁻⁸`) of that of the matrix exponential, relative to the input translation -/
theorem c39_se2_exp_error (v : V 3) :
    ∃ t : V 2, NormedSpace.exp (∑ i, v i • se2Gen i) = (⟨so2Exp (v 2), t⟩ : SE 2).mat ∧
      ∀ i, |(se2Exp v).t i - t i| ≤ (if v 2 * v 2 < 1e-8 then 2e-9 else 1e-17) * (|v 0| + |v 1|) := by
  have hnn : (0:ℝ) ≤ (if v 2 * v 2 < 1e-8 then 2e-9 else 1e-17) * (|v 0| + |v 1|) := by
    apply mul_nonneg _ (by positivity); split_ifs <;> norm_num
  by_cases h : 1e-6 ≤ v 2 * v 2 ∨ v 2 = 0
  · refine ⟨(se2Exp v).t, ?_, fun i => by rw [sub_self, abs_zero]; exact hnn⟩
    rw [← c39_se2_exp_is_matrix_exponential v h]
    congr 1
    rw [SE.ext_iff]
    exact ⟨by rw [se2Exp_eq], rfl⟩
  · rw [not_or, not_le] at h
    refine ⟨_, se2_exp_eq v h.2, fun i => ?_⟩
    obtain ⟨a, b, c⟩ := se2Coeff_error (v 2) h.2 h.1
    rw [se2Exp_eq]
    have hb : ∃ e : ℝ, e = (if v 2 * v 2 < 1e-8 then 2e-9 else 1e-17) ∧ |(se2Coeff (v 2)).1 - Real.sin (v 2) / v 2| ≤ e ∧
        |(se2Coeff (v 2)).2 - (1 - Real.cos (v 2)) / (v 2 * v 2)| * |v 2| ≤ e := by
      refine ⟨_, rfl, ?_⟩
      split_ifs with c8
      · exact ⟨a, b.trans (by norm_num)⟩
      · exact c (not_lt.1 c8)
    obtain ⟨e, he, h1, h2⟩ := hb
    rw [← he]
    generalize (se2Coeff (v 2)).1 = A at *
    generalize (se2Coeff (v 2)).2 = B at *
    generalize Real.sin (v 2) / v 2 = A' at *
    generalize (1 - Real.cos (v 2)) / (v 2 * v 2) = B' at *
    fin_cases i
    · have := lin2_bound (v 0) (-v 1) h1 h2
      rw [abs_neg] at this
      refine le_of_eq_of_le (congrArg _ ?_) this
      simp; ring
    · have := lin2_bound (v 1) (v 0) h1 h2
      rw [add_comm |v 1|] at this
      refine le_of_eq_of_le (congrArg _ ?_) this
      simp; ring

theorem two_sin_half_ne {θ : ℝ} (h : θ ∈ Set.Ioc (-Real.pi) Real.pi) (h0 : θ ≠ 0) : Real.sin (θ / 2) ≠ 0 := by
  intro hs
  have := Real.pi_pos
  rw [Real.sin_eq_zero_iff_of_lt_of_lt (by linarith [h.1]) (by linarith [h.2])] at hs
  exact h0 (by linarith)

/-- **C39** (SE2) `ln(exp(v)) = v` for angles in `(-π, π]` that are zero or at least `0.001` in magnitude -/
theorem c39_se2_ln_exp (v : V 3) (h : v 2 ∈ Set.Ioc (-Real.pi) Real.pi) (hb : 1e-6 ≤ v 2 * v 2 ∨ v 2 = 0) :
    se2Ln (se2Exp v) = some v := by
  have hθ : so2Ln (so2Exp (v 2)) = v 2 := c33_ln_exp _ h
  rcases hb with hb | hb
  · have c1 : ¬ v 2 * v 2 < 1e-6 := not_lt.2 hb
    have c0 : ¬ v 2 * v 2 < 1e-8 := by intro h0; apply c1; norm_num at *; linarith
    have h0 : v 2 ≠ 0 := by intro h0; rw [h0] at c0; norm_num at c0
    have ha : |v 2| > 0.00001 := by
      by_contra hc
      rw [not_lt] at hc
      have := abs_mul_abs_self (v 2)
      have := abs_nonneg (v 2)
      norm_num at hb hc
      nlinarith
    have hs := two_sin_half_ne h h0
    rw [se2Exp_eq]
    unfold se2Ln
    simp only [hθ, if_pos ha, se2Coeff, if_neg c0, if_neg c1]
    rw [if_neg (by positivity)]
    congr 1
    obtain ⟨hs1, hc1⟩ := half_angle (v 2)
    have hsc := Real.sin_sq_add_cos_sq (v 2 / 2)
    have eh : v 2 * -0.5 = -(v 2 / 2) := by norm_num; ring
    rw [eh, hs1, hc1]
    funext i
    fin_cases i
    · simp [so2Exp, mulVec, dotProduct, Fin.sum_univ_two]
      generalize Real.sin (v 2 / 2) = s at *
      generalize Real.cos (v 2 / 2) = c at *
      field_simp
      linear_combination (v 0) * hsc
    · simp [so2Exp, mulVec, dotProduct, Fin.sum_univ_two]
      generalize Real.sin (v 2 / 2) = s at *
      generalize Real.cos (v 2 / 2) = c at *
      field_simp
      linear_combination (v 1) * hsc
    · simp
  · rw [se2Exp_eq]
    unfold se2Ln
    have c0 : (0:ℝ) * 0 < 1e-8 := by norm_num
    have c1 : ¬ |(0:ℝ)| > 0.00001 := by norm_num
    rw [hb] at hθ ⊢
    simp only [hθ, if_neg c1, se2Coeff, if_pos c0]
    rw [if_neg (by norm_num)]
    congr 1
    have e5 : (2 * 0.5 : ℝ) = 1 := by norm_num
    rw [e5]
    funext i
    fin_cases i
    · simp [so2Exp, mulVec, dotProduct, Fin.sum_univ_two]
    · simp [so2Exp, mulVec, dotProduct, Fin.sum_univ_two]
    · simp [hb]

/-- **C39** (SE2) for every rigid transformation `ln` succeeds with an angle in `(-π, π]`; the matrix exponential of its result
is the transformation, exactly for angle zero or above `10⁻⁵` and to a relative `10⁻¹¹` in the translation otherwise; the
code's `exp` gives it back exactly for angle zero or at least `0.001` -/
theorem c39_se2_exp_ln (a : SE 2) (h : IsRot a.R) :
    ∃ v, se2Ln a = some v ∧ v 2 ∈ Set.Ioc (-Real.pi) Real.pi ∧
      (∃ t : V 2, NormedSpace.exp (∑ i, v i • se2Gen i) = (⟨a.R, t⟩ : SE 2).mat ∧
        (∀ i, |t i - a.t i| ≤ 1e-11 * |a.t i|) ∧ (0.00001 < |v 2| ∨ v 2 = 0 → t = a.t)) ∧
      (1e-6 ≤ v 2 * v 2 ∨ v 2 = 0 → se2Exp v = a) := by
  obtain ⟨hR, hr⟩ := c33_exp_ln a.R h
  obtain ⟨θ, hθ⟩ : ∃ θ, so2Ln a.R = θ := ⟨_, rfl⟩
  rw [hθ] at hR hr
  obtain ⟨sh, hsh⟩ : ∃ sh : ℝ, (if |θ| > 0.00001 then Real.sin (θ / 2) / θ else 0.5) = sh := ⟨_, rfl⟩
  have hsh0 : sh ≠ 0 := by
    rw [← hsh]
    split_ifs with c
    · have h0 : θ ≠ 0 := by rintro rfl; norm_num at c
      exact div_ne_zero (two_sin_half_ne hr h0) h0
    · norm_num
  have hl : se2Ln a = some ![((so2Exp (θ * -0.5)).mulVec a.t) 0 / (2 * sh), ((so2Exp (θ * -0.5)).mulVec a.t) 1 / (2 * sh), θ] := by
    unfold se2Ln
    simp only [hθ, hsh]
    rw [if_neg (by positivity)]
  have eh : θ * -0.5 = -(θ / 2) := by norm_num; ring
  rw [eh] at hl
  by_cases h0 : θ = 0
  · subst h0
    have hsh' : sh = 1 / 2 := by rw [← hsh]; norm_num
    have hv : se2Ln a = some ![a.t 0, a.t 1, 0] := by
      rw [hl, hsh']
      congr 1
      funext i; fin_cases i <;> simp [so2Exp, mulVec, dotProduct, Fin.sum_univ_two]
    have hR1 : a.R = 1 := by rw [← hR]; ext i j; fin_cases i <;> fin_cases j <;> simp [so2Exp]
    have hE := (c39_se2_exp_pure (a.t 0) (a.t 1) 0 0).1
    have ht : (![a.t 0, a.t 1] : V 2) = a.t := by funext i; fin_cases i <;> rfl
    rw [ht] at hE
    refine ⟨_, hv, hr, ⟨a.t, ?_, fun i => by rw [sub_self, abs_zero]; positivity, fun _ => rfl⟩, fun _ => ?_⟩
    · rw [← c39_se2_exp_is_matrix_exponential _ (Or.inr rfl), hE, hR1]
    · rw [hE, SE.ext_iff]; exact ⟨hR1.symm, rfl⟩
  · have hs := two_sin_half_ne hr h0
    obtain ⟨hs1, hc1⟩ := half_angle θ
    have hsc := Real.sin_sq_add_cos_sq (θ / 2)
    have hE := se2_exp_eq ![((so2Exp (-(θ / 2))).mulVec a.t) 0 / (2 * sh), ((so2Exp (-(θ / 2))).mulVec a.t) 1 / (2 * sh), θ] h0
    simp only [Matrix.cons_val] at hE
    rw [hR] at hE
    have htr : (Real.sin θ / θ) • ![((so2Exp (-(θ / 2))).mulVec a.t) 0 / (2 * sh), ((so2Exp (-(θ / 2))).mulVec a.t) 1 / (2 * sh)] +
        ((1 - Real.cos θ) / (θ * θ)) • ![-θ * (((so2Exp (-(θ / 2))).mulVec a.t) 1 / (2 * sh)), θ * (((so2Exp (-(θ / 2))).mulVec a.t) 0 / (2 * sh))] =
        (Real.sin (θ / 2) / θ / sh) • a.t := by
      rw [hs1, hc1]
      funext i
      fin_cases i
      · simp [so2Exp, mulVec, dotProduct, Fin.sum_univ_two]
        generalize Real.sin (θ / 2) = s at *
        generalize Real.cos (θ / 2) = c at *
        field_simp
        linear_combination (a.t 0) * hsc
      · simp [so2Exp, mulVec, dotProduct, Fin.sum_univ_two]
        generalize Real.sin (θ / 2) = s at *
        generalize Real.cos (θ / 2) = c at *
        field_simp
        linear_combination (a.t 1) * hsc
    rw [htr] at hE
    have hex : 0.00001 < |θ| → (Real.sin (θ / 2) / θ / sh) • a.t = a.t := by
      intro hb
      rw [← hsh, if_pos hb, div_self (div_ne_zero hs h0), one_smul]
    refine ⟨_, hl, hr, ⟨_, hE, ?_, ?_⟩, ?_⟩
    · intro i
      by_cases hb : 0.00001 < |θ|
      · rw [hex hb, sub_self, abs_zero]; positivity
      · have : sh = 1 / 2 := by rw [← hsh, if_neg hb]; norm_num
        rw [this, Pi.smul_apply, smul_eq_mul]
        have e : Real.sin (θ / 2) / θ / (1 / 2) * a.t i - a.t i = (Real.sin (θ / 2) / (θ / 2) - 1) * a.t i := by
          field_simp
        rw [e, abs_mul]
        apply mul_le_mul_of_nonneg_right _ (abs_nonneg _)
        rw [abs_sub_comm]
        apply abs_sub_div_le (by simpa using h0)
        rw [one_mul]
        have hp : 0 < |θ / 2| := by rw [abs_pos]; simpa using h0
        have hx : |θ / 2| ≤ 1 / 200000 := by
          rw [abs_div, abs_of_pos (by norm_num : (0:ℝ) < 2)]
          norm_num at hb ⊢
          linarith
        obtain ⟨-, ts⟩ := taylor6 (x := θ / 2) (by linarith)
        have b := pow_bounds hp.le hx
        generalize θ / 2 = x at *
        have e6 : x ^ 6 = |x| ^ 6 := by rw [show x ^ 6 = (x ^ 2) ^ 3 by ring, ← sq_abs x]; ring
        rw [e6] at ts
        have : x - Real.sin x = x ^ 3 / 6 - x ^ 5 / 120 - (Real.sin x - (x - x ^ 3 / 6 + x ^ 5 / 120)) := by ring
        rw [this]
        have t1 := abs_sub (x ^ 3 / 6 - x ^ 5 / 120) (Real.sin x - (x - x ^ 3 / 6 + x ^ 5 / 120))
        have t2 := abs_sub (x ^ 3 / 6) (x ^ 5 / 120)
        rw [abs_div, abs_div, abs_pow, abs_pow, abs_of_pos (by norm_num : (0:ℝ) < 6), abs_of_pos (by norm_num : (0:ℝ) < 120)] at t2
        norm_num at b ⊢
        linarith [b.1, b.2.1, b.2.2.1, b.2.2.2]
    · rintro (hb | hb)
      · exact hex hb
      · exact absurd hb h0
    · rintro (hb | hb)
      · have hb' : 0.00001 < |θ| := by
          by_contra hc
          rw [not_lt] at hc
          have := abs_mul_abs_self θ
          have := abs_nonneg θ
          simp only [Matrix.cons_val] at hb
          norm_num at hb hc
          nlinarith
        rw [← SE.mat_inj, c39_se2_exp_is_matrix_exponential _ (Or.inl hb), hE, hex hb']
      · exact absurd hb h0

/-- **C38** (SE2) for the code's `exp`: the rotation parts of `A exp(v) A⁻¹` and `exp(adjoint(v))` agree always, the translation
exactly outside the Taylor branches and to `2·10⁻¹²(|t₀|+|t₁|)` inside them -/
theorem c38_se2_adjoint_code (a : SE 2) (h : IsRot a.R) (v : V 3) :
    (SE.mul (SE.mul a (se2Exp v)) a.inv).R = (se2Exp (se2Adjoint a v)).R ∧
    (1e-6 ≤ v 2 * v 2 ∨ v 2 = 0 → SE.mul (SE.mul a (se2Exp v)) a.inv = se2Exp (se2Adjoint a v)) ∧
    ∀ i, |(SE.mul (SE.mul a (se2Exp v)) a.inv).t i - (se2Exp (se2Adjoint a v)).t i| ≤ 2e-12 * (|a.t 0| + |a.t 1|) := by
  have h2 : se2Adjoint a v 2 = v 2 := rfl
  have hR : (SE.mul (SE.mul a (se2Exp v)) a.inv).R = (se2Exp (se2Adjoint a v)).R := by
    rw [(c39_se2_exp_pure 0 0 0 (se2Adjoint a v)).2.2, h2]
    simp only [SE.mul, SE.inv, se2Exp_eq]
    obtain ⟨g1, g2, g3⟩ := rot2_form h
    ext i j
    fin_cases i <;> fin_cases j <;> simp [so2Exp, Matrix.mul_apply, Fin.sum_univ_two, g1, g2]
    · linear_combination Real.cos (v 2) * g3
    · linear_combination (-Real.sin (v 2)) * g3
    · linear_combination Real.sin (v 2) * g3
    · linear_combination Real.cos (v 2) * g3
  have hex : 1e-6 ≤ v 2 * v 2 ∨ v 2 = 0 → SE.mul (SE.mul a (se2Exp v)) a.inv = se2Exp (se2Adjoint a v) := by
    intro hb
    rw [← SE.mat_inj, c37_mul_is_matrix_product, c37_mul_is_matrix_product, c39_se2_exp_is_matrix_exponential _ hb,
      c39_se2_exp_is_matrix_exponential _ (by rw [h2]; exact hb), c38_se2_adjoint_exponential a h]
  refine ⟨hR, hex, fun i => ?_⟩
  by_cases hb : 1e-6 ≤ v 2 * v 2 ∨ v 2 = 0
  · rw [hex hb, sub_self, abs_zero]; positivity
  · rw [not_or, not_le] at hb
    obtain ⟨ea, eb, -⟩ := se2Coeff_error (v 2) hb.2 hb.1
    have hx : |v 2| ≤ 1 / 1000 := by
      apply abs_le_of_sq_le_sq _ (by norm_num); have := hb.1; norm_num at this ⊢; nlinarith
    have e1 : |(se2Coeff (v 2)).1 * v 2 - Real.sin (v 2)| ≤ 2e-12 := by
      have : (se2Coeff (v 2)).1 * v 2 - Real.sin (v 2) = ((se2Coeff (v 2)).1 - Real.sin (v 2) / v 2) * v 2 := by
        have := hb.2; field_simp
      rw [this, abs_mul]
      calc _ ≤ 2e-9 * (1 / 1000) := mul_le_mul ea hx (abs_nonneg _) (by norm_num)
        _ = _ := by norm_num
    have e2 : |(se2Coeff (v 2)).2 * (v 2 * v 2) - (1 - Real.cos (v 2))| ≤ 2e-12 := by
      have : (se2Coeff (v 2)).2 * (v 2 * v 2) - (1 - Real.cos (v 2)) = ((se2Coeff (v 2)).2 - (1 - Real.cos (v 2)) / (v 2 * v 2)) * v 2 * v 2 := by
        have := hb.2; field_simp
      rw [this, abs_mul, abs_mul]
      calc _ ≤ 1e-12 * (1 / 1000) := mul_le_mul eb hx (abs_nonneg _) (by norm_num)
        _ ≤ _ := by norm_num
    obtain ⟨g1, g2, g3⟩ := rot2_form h
    have ht : ∀ i, (SE.mul (SE.mul a (se2Exp v)) a.inv).t i =
        (a.t + a.R.mulVec (se2Exp v).t - ((SE.mul (SE.mul a (se2Exp v)) a.inv).R).mulVec a.t) i := by
      intro i
      congr 1
      simp only [SE.mul, SE.inv, mulVec_neg, mulVec_mulVec]
      rw [sub_eq_add_neg]
    rw [ht, hR, se2Exp_eq, se2Exp_eq, h2]
    have key : ∀ x y p q : ℝ, |x| ≤ 2e-12 → |y| ≤ 2e-12 → |x * p + y * q| ≤ 2e-12 * (|p| + |q|) := by
      intro x y p q hx hy
      have := lin2_bound (θ := 1) (dB := y) p q hx (le_of_eq_of_le (by rw [abs_one, mul_one]) hy)
      rwa [one_mul] at this
    generalize (se2Coeff (v 2)).1 = A at *
    generalize (se2Coeff (v 2)).2 = B at *
    fin_cases i
    · have := key _ _ (a.t 1) (a.t 0) (le_of_eq_of_le (abs_neg _) e1) (le_of_eq_of_le (abs_neg _) e2)
      rw [add_comm |a.t 1|] at this
      refine le_of_eq_of_le (congrArg _ ?_) this
      simp [se2Adjoint, so2Exp, mulVec, dotProduct, Fin.sum_univ_two, g1, g2]
      ring
    · have := key _ _ (a.t 0) (a.t 1) e1 (le_of_eq_of_le (abs_neg _) e2)
      refine le_of_eq_of_le (congrArg _ ?_) this
      simp [se2Adjoint, so2Exp, mulVec, dotProduct, Fin.sum_univ_two, g1, g2]
      ring

/-- **C39** (SE2) the direction of `exp` at the identity is the linear combination of the generators -/
theorem c39_se2_exp_derivative (v : V 3) (i j : Fin 3) :
    HasDerivAt (fun s : ℝ => (se2Exp (s • v)).mat i j) ((∑ k, v k • se2Gen k) i j) 0 := by
  have hev : ∀ᶠ s : ℝ in nhds 0, (se2Exp (s • v)).mat i j =
      (hom (so2Exp (s * v 2)) ![s * v 0 - s * s * v 2 * v 1 / 2, s * v 1 + s * s * v 2 * v 0 / 2]) i j := by
    have hc : ∀ᶠ s : ℝ in nhds 0, (s * v 2) * (s * v 2) < 1e-8 := by
      have : Filter.Tendsto (fun s : ℝ => (s * v 2) * (s * v 2)) (nhds 0) (nhds ((0 * v 2) * (0 * v 2))) :=
        ((continuous_id.mul continuous_const).mul (continuous_id.mul continuous_const)).tendsto 0
      exact this.eventually (gt_mem_nhds (by norm_num))
    filter_upwards [hc] with s hs
    rw [se2Exp_eq]
    simp only [Pi.smul_apply, smul_eq_mul, se2Coeff, if_pos hs, SE.mat]
    congr 2
    congr 1
    funext k
    fin_cases k <;> simp <;> norm_num <;> ring
  refine HasDerivAt.congr_of_eventuallyEq ?_ hev
  rw [se2_gen_sum]
  have hlin : HasDerivAt (fun s : ℝ => s * v 2) (v 2) 0 := by simpa using (hasDerivAt_id (0:ℝ)).mul_const (v 2)
  have hh : ∀ (E : ℝ → M 2) (T : ℝ → V 2) (E' : M 2) (T' : V 2), (∀ i j, HasDerivAt (fun s => E s i j) (E' i j) 0) →
      (∀ i, HasDerivAt (fun s => T s i) (T' i) 0) → HasDerivAt (fun s => hom (E s) (T s) i j) (blk E' T' i j) 0 := by
    intro E T E' T' h1 h2
    refine Fin.lastCases ?_ (fun i => ?_) i <;> refine Fin.lastCases ?_ (fun j => ?_) j <;>
      simp only [aug, Fin.lastCases_last, Fin.lastCases_castSucc]
    · exact hasDerivAt_const _ _
    · exact hasDerivAt_const _ _
    · exact h2 i
    · exact h1 i j
  refine hh (fun s => so2Exp (s * v 2)) (fun s => ![s * v 0 - s * s * v 2 * v 1 / 2, s * v 1 + s * s * v 2 * v 0 / 2]) _ _ ?_ ?_
  · intro i j
    fin_cases i <;> fin_cases j
    · simpa [so2Exp] using hlin.cos
    · exact hlin.sin.neg.congr_deriv (by simp)
    · simpa [so2Exp] using hlin.sin
    · simpa [so2Exp] using hlin.cos
  · intro i
    have hq : HasDerivAt (fun s : ℝ => s * s) 0 0 := ((hasDerivAt_id (0:ℝ)).mul (hasDerivAt_id (0:ℝ))).congr_deriv (by simp)
    have hi : ∀ c : ℝ, HasDerivAt (fun s : ℝ => s * c) c 0 := fun c => by simpa using (hasDerivAt_id (0:ℝ)).mul_const c
    fin_cases i
    · exact ((hi (v 0)).sub (((hq.mul_const (v 2)).mul_const (v 1)).div_const 2)).congr_deriv (by simp)
    · exact ((hi (v 1)).add (((hq.mul_const (v 2)).mul_const (v 0)).div_const 2)).congr_deriv (by simp)

/-- the hypotheses of the round trips are met: a quarter turn with a translation, and its logarithm -/
example : IsRot (⟨!![0, -1; 1, 0], ![1, 2]⟩ : SE 2).R ∧ (1 : ℝ) ∈ Set.Ioc (-Real.pi) Real.pi ∧ (1e-6 : ℝ) ≤ 1 * 1 := by
  refine ⟨⟨?_, ?_⟩, ⟨?_, ?_⟩, by norm_num⟩
  · ext i j; fin_cases i <;> fin_cases j <;> simp [Matrix.mul_apply, Fin.sum_univ_two]
  · simp [det_fin_two]
  · linarith [Real.pi_pos]
  · linarith [Real.pi_gt_three]

end TooN.Lie
