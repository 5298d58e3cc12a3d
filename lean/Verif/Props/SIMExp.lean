import Verif.Props.SIM
/-!
# C40: exponential, logarithm, generators and adjoint of SIM3 and SIM2
-/
set_option linter.unusedSectionVars false
namespace TooN.Lie
open Matrix

theorem sim3_gen_sum (v : V 7) : ∑ i, v i • sim3Gen i = blk (skew (hi (pos v)) + v 6 • (1 : M 3)) (lo (pos v)) := by
  rw [blk_four]
  ext i j
  rw [Fin.sum_univ_seven]
  fin_cases i <;> fin_cases j <;> simp [sim3Gen, put, ix3, skew, hi, lo, pos, Matrix.add_apply]

theorem sim2_gen_sum (v : V 4) : ∑ i, v i • sim2Gen i = blk (v 2 • !![0, -1; 1, 0] + v 3 • (1 : M 2)) ![v 0, v 1] := by
  rw [blk_three]
  ext i j
  rw [Fin.sum_univ_four]
  fin_cases i <;> fin_cases j <;> simp [sim2Gen, put, Matrix.add_apply]

/-- **C40** the generators: 0–2 translation, 3–5 rotation about the axes, 6 scaling (velocity of a homogeneous point), and
`generator_field` is the product with the generator; for SIM2 0–1 translation, 2 rotation, 3 scaling -/
theorem c40_generators (v : V 7) (x : V 3) (w : ℝ) (p : V 4) (i : Fin 7) (u : V 4) (a b c : ℝ) :
    (∑ i, v i • sim3Gen i).mulVec (Fin.snoc x w) =
      Fin.snoc (crossV (hi (pos v)) x + v 6 • x + w • lo (pos v)) 0 ∧
    sim3GenField i p = (sim3Gen i).mulVec p ∧
    (∑ i, u i • sim2Gen i).mulVec ![a, b, c] = ![c * u 0 - u 2 * b + u 3 * a, c * u 1 + u 2 * a + u 3 * b, 0] := by
  refine ⟨?_, ?_, ?_⟩
  · rw [sim3_gen_sum, blk_four]
    funext i
    have e3 : (Fin.snoc x w : V 4) = ![x 0, x 1, x 2, w] := by funext i; fin_cases i <;> rfl
    have e4 : ∀ z : V 3, (Fin.snoc z 0 : V 4) = ![z 0, z 1, z 2, 0] := by intro z; funext i; fin_cases i <;> rfl
    rw [e3, e4]
    simp only [Pi.add_apply, Pi.smul_apply, smul_eq_mul]
    fin_cases i <;> simp [mulVec, dotProduct, Fin.sum_univ_four, skew, crossV] <;> ring
  · funext r
    fin_cases i <;> fin_cases r <;>
      simp [sim3Gen, sim3GenField, put, ix3, mulVec, dotProduct, Fin.sum_univ_four, Function.update]
  · rw [sim2_gen_sum, blk_three]
    funext i
    fin_cases i <;> simp [mulVec, dotProduct, Fin.sum_univ_three] <;> ring

theorem sim3Exp_eq (mu : V 7) : sim3Exp mu = ⟨so3Exp (hi (pos mu)),
    ((simCoeff (mu 6) (Real.sqrt (hi (pos mu) ⬝ᵥ hi (pos mu)))).1 • (1 : M 3) +
      (simCoeff (mu 6) (Real.sqrt (hi (pos mu) ⬝ᵥ hi (pos mu)))).2.1 • skew (hi (pos mu)) +
      (simCoeff (mu 6) (Real.sqrt (hi (pos mu) ⬝ᵥ hi (pos mu)))).2.2 • (skew (hi (pos mu)) * skew (hi (pos mu)))).mulVec (lo (pos mu)),
    Real.exp (mu 6)⟩ := by
  unfold sim3Exp
  simp only [Matrix.add_mulVec, one_mulVec, smul_mulVec, ← mulVec_mulVec, skew_mulVec]

/-- the coefficients are exact when each argument is zero or at least the threshold -/
theorem simCoeff_exact (s t : ℝ) (hs : s = 0 ∨ 1e-6 ≤ |s|) (ht : t ≠ 0 → 1e-6 ≤ |t|) :
    (simCoeff s t).1 = (if s = 0 then 1 else (Real.exp s - 1) / s) ∧
    (t ≠ 0 → (simCoeff s t).2.1 = (Real.exp s * Real.sin t * s + (1 - Real.exp s * Real.cos t) * t) / (s * s + t * t) / t ∧
      (simCoeff s t).2.2 = ((if s = 0 then 1 else (Real.exp s - 1) / s) -
        ((Real.exp s * Real.cos t - 1) * s + Real.exp s * Real.sin t * t) / (s * s + t * t)) / (t * t)) := by
  rcases hs with rfl | hs
  · have e0 : |(0:ℝ)| < 1e-6 := by norm_num
    constructor
    · unfold simCoeff
      simp only [e0, true_and, if_true]
      split_ifs <;> simp
    · intro h0
      have : ¬ |t| < 1e-6 := not_lt.2 (ht h0)
      unfold simCoeff
      simp only [e0, true_and, if_neg this, if_true, Real.exp_zero]
      constructor
      · simp; field_simp
      · simp; field_simp
  · have c : ¬ |s| < 1e-6 := not_lt.2 hs
    have h0 : s ≠ 0 := by rintro rfl; norm_num at hs
    constructor
    · unfold simCoeff
      simp only [c, false_and, if_false, h0]
      split_ifs <;> rfl
    · intro ht0
      have : ¬ |t| < 1e-6 := not_lt.2 (ht ht0)
      unfold simCoeff
      simp only [c, this, false_and, if_false, h0, mul_one_div, and_self]

/-- **C40** `SIM3::exp` is the matrix exponential of the linear combination of the generators whenever the rotation vector is zero
or not in the Taylor range and the log-scale is zero or not in the Taylor range -/
theorem c40_exp_is_matrix_exponential (mu : V 7) (hs : mu 6 = 0 ∨ 1e-6 ≤ |mu 6|)
    (hw : hi (pos mu) = 0 ∨ 1e-6 ≤ hi (pos mu) ⬝ᵥ hi (pos mu)) :
    (sim3Exp mu).mat = NormedSpace.exp (∑ i, mu i • sim3Gen i) := by
  rw [sim3_gen_sum, sim3Exp_eq, SIM.mat]
  have ht0 : Real.sqrt (hi (pos mu) ⬝ᵥ hi (pos mu)) ≠ 0 → 1e-6 ≤ |Real.sqrt (hi (pos mu) ⬝ᵥ hi (pos mu))| := by
    intro h0
    rcases hw with hw | hw
    · rw [hw] at h0; simp at h0
    · rw [abs_of_nonneg (Real.sqrt_nonneg _)]
      apply Real.le_sqrt_of_sq_le
      norm_num at hw ⊢; linarith
  obtain ⟨k0, k1⟩ := simCoeff_exact (mu 6) (Real.sqrt (hi (pos mu) ⬝ᵥ hi (pos mu))) hs ht0
  rcases hw with hw | hw
  · have hR : so3Exp (hi (pos mu)) = 1 := by unfold so3Exp; rw [rodrigues_eq, hw, skew_zero]; simp
    rw [hR, hw, skew_zero, zero_add]
    simp only [hw] at k0
    rw [dotProduct_zero, Real.sqrt_zero] at k0 ⊢
    by_cases h0 : mu 6 = 0
    · rw [h0, zero_smul, exp_blk_trans, hom_inj, Real.exp_zero, one_smul]
      rw [h0, if_pos rfl] at k0
      rw [k0]
      simp
    · rw [exp_blk_scale _ h0, hom_inj]
      rw [if_neg h0] at k0
      rw [k0]
      simp [smul_mulVec]
  · have hp : 0 < hi (pos mu) ⬝ᵥ hi (pos mu) := lt_of_lt_of_le (by norm_num) hw
    have hθ := Real.sqrt_pos.2 hp
    have hq := Real.mul_self_sqrt hp.le
    have hR := c34_exp_is_matrix_exponential (hi (pos mu)) hw
    rw [gen_sum, exp_skew _ _ (by rw [hq, dot3]) hθ.ne'] at hR
    have hcube : skew (hi (pos mu)) * (skew (hi (pos mu)) * skew (hi (pos mu))) =
      -(Real.sqrt (hi (pos mu) ⬝ᵥ hi (pos mu)) * Real.sqrt (hi (pos mu) ⬝ᵥ hi (pos mu))) • skew (hi (pos mu)) := by rw [skew_cube_dot, hq]
    obtain ⟨k1, k2⟩ := k1 hθ.ne'
    by_cases h0 : mu 6 = 0
    · rw [if_pos h0] at k0 k2
      rw [h0] at k0 k1 k2 ⊢
      rw [zero_smul, add_zero, exp_blk_rigid _ _ hθ.ne' hcube, hom_inj, Real.exp_zero, one_smul]
      constructor
      · rw [hR]
      · rw [k0, k1, k2, one_smul, Real.exp_zero]
        have hne := hθ.ne'
        generalize Real.sqrt (hi (pos mu) ⬝ᵥ hi (pos mu)) = θ at hne
        have g1 : (1 * Real.sin θ * 0 + (1 - 1 * Real.cos θ) * θ) / (0 * 0 + θ * θ) / θ = (1 - Real.cos θ) / (θ * θ) := by
          field_simp; ring
        have g2 : (1 - ((1 * Real.cos θ - 1) * 0 + 1 * Real.sin θ * θ) / (0 * 0 + θ * θ)) / (θ * θ) = (1 - Real.sin θ / θ) / (θ * θ) := by
          field_simp; ring
        rw [g1, g2]
    · rw [if_neg h0] at k0 k2
      rw [exp_blk_sim _ _ _ hθ.ne' h0 hcube, hom_inj]
      constructor
      · rw [hR]
      · rw [k0, k1, k2]

/-- **C40** `SIM3::exp`: a pure translation is that translation; the rotation is `SO3::exp`, the scale `exp` of the seventh
coordinate -/
theorem c40_exp_pure (u : V 3) (mu : V 7) :
    sim3Exp (Fin.snoc (join u 0) 0) = ⟨1, u, 1⟩ ∧ (sim3Exp mu).R = so3Exp (hi (pos mu)) ∧ (sim3Exp mu).s = Real.exp (mu 6) := by
  refine ⟨?_, rfl, rfl⟩
  have e6 : (Fin.snoc (join u 0) 0 : V 7) 6 = 0 := rfl
  have ep : pos (Fin.snoc (join u 0) 0 : V 7) = join u 0 := by funext i; simp [pos]
  rw [sim3Exp_eq, e6, ep, hi_join, lo_join, skew_zero]
  have := (simCoeff_exact 0 0 (Or.inl rfl) (fun h => absurd rfl h)).1
  rw [dotProduct_zero, Real.sqrt_zero, this]
  rw [SIM.ext_iff]
  refine ⟨?_, by simp, by simp⟩
  simp only [so3Exp]; rw [rodrigues_eq, skew_zero]; simp

/-- **C40** (defect) inside the first Taylor branch `1/2` is an integer division: for a rotation by `5·10⁻⁷` about x and the
translation coordinates of a unit step along y the z translation is off by more than `2·10⁻⁷`, where the comment in the code claims
an accuracy of `10⁻¹⁸`; `SE3::exp` of the same coordinates is within `10⁻¹²` -/
theorem c40_exp_small_wrong :
    ∃ t : V 3, NormedSpace.exp (∑ i, (![0, 1, 0, 5e-7, 0, 0, 0] : V 7) i • sim3Gen i) =
        hom (NormedSpace.exp (skew ![5e-7, 0, 0])) t ∧
      2e-7 ≤ |(sim3Exp ![0, 1, 0, 5e-7, 0, 0, 0]).t 2 - t 2| := by
  have ew : hi (pos (![0, 1, 0, 5e-7, 0, 0, 0] : V 7)) = ![5e-7, 0, 0] := by funext i; fin_cases i <;> rfl
  have eu : lo (pos (![0, 1, 0, 5e-7, 0, 0, 0] : V 7)) = ![0, 1, 0] := by funext i; fin_cases i <;> rfl
  have es : (![0, 1, 0, 5e-7, 0, 0, 0] : V 7) 6 = 0 := rfl
  have hq : ((5e-7 : ℝ) * 5e-7) = ![(5e-7 : ℝ), 0, 0] 0 * ![(5e-7 : ℝ), 0, 0] 0 + ![(5e-7 : ℝ), 0, 0] 1 * ![(5e-7 : ℝ), 0, 0] 1 +
      ![(5e-7 : ℝ), 0, 0] 2 * ![(5e-7 : ℝ), 0, 0] 2 := by simp
  have hd : (![(5e-7 : ℝ), 0, 0] ⬝ᵥ ![5e-7, 0, 0]) = 5e-7 * 5e-7 := by rw [dot3, ← hq]
  rw [sim3_gen_sum, ew, eu, es, zero_smul, add_zero, exp_blk_rigid _ 5e-7 (by norm_num) (by rw [skew_cube_dot, hd]),
    ← exp_skew _ 5e-7 hq (by norm_num)]
  refine ⟨_, rfl, ?_⟩
  have hc : (simCoeff 0 5e-7).2.1 = -(5e-7 * 5e-7) / 24 := by
    unfold simCoeff
    simp only
    rw [if_pos (by constructor <;> norm_num [abs_of_pos])]
    norm_num
  have ht : (sim3Exp ![0, 1, 0, 5e-7, 0, 0, 0]).t 2 = -(5e-7 * 5e-7) / 24 * 5e-7 := by
    rw [sim3Exp_eq, ew, eu, es, hd, Real.sqrt_mul_self (by norm_num), hc]
    simp [mulVec, dotProduct, Fin.sum_univ_three, skew, Matrix.mul_apply]
  rw [ht]
  have ht2 : ((1 + ((1 - Real.cos 5e-7) / (5e-7 * 5e-7)) • skew ![5e-7, 0, 0] + ((1 - Real.sin 5e-7 / 5e-7) / (5e-7 * 5e-7)) •
      (skew ![5e-7, 0, 0] * skew ![5e-7, 0, 0])).mulVec ![0, 1, 0]) 2 = (1 - Real.cos 5e-7) / (5e-7 * 5e-7) * 5e-7 := by
    simp [mulVec, dotProduct, Fin.sum_univ_three, skew, Matrix.mul_apply]
  rw [ht2]
  obtain ⟨tc, -⟩ := taylor6 (x := 5e-7) (by norm_num [abs_of_pos])
  rw [abs_le] at tc
  have h1 : 2.4e-7 ≤ (1 - Real.cos 5e-7) / (5e-7 * 5e-7) * 5e-7 := by
    rw [div_mul_eq_mul_div, le_div_iff₀ (by norm_num)]
    have := tc.2
    norm_num at this ⊢
    linarith
  rw [abs_sub_comm]
  refine le_trans ?_ (le_abs_self _)
  norm_num at h1 ⊢
  linarith

end TooN.Lie
