import Verif.Props.SE3Ln
import Verif.Props.FloatSE3
/-!
# The translation part of the exponential map of SE(3) as a linear map, and its exact inverse

Purely about real numbers and matrices; used for `SE3::ln` in floating point.
-/
set_option linter.unusedSectionVars false
namespace TooN.Lie
open Matrix Finset FlRot

/-- translation of `exp` of the twist with translation `p` and rotation vector `w` -/
noncomputable def expTr (p w : V 3) : V 3 := fun i => (NormedSpace.exp (∑ k, join p w k • se3Gen k) : M 4) i.castSucc (Fin.last 3)

/-- `sin(θ/2)/θ`, and its limit -/
noncomputable def shR (θ : ℝ) : ℝ := if θ = 0 then 1 / 2 else Real.sin (θ / 2) / θ

theorem eucl_eq_sqrt (w : V 3) : eucl w = Real.sqrt (w ⬝ᵥ w) := by
  rw [← eucl_sq, Real.sqrt_sq (eucl_nonneg _)]

theorem expTr_le (p w : V 3) : eucl (expTr p w) ≤ eucl p := by
  have := se3_exact_short (join p w)
  rwa [lo_join] at this

theorem expTr_lin (p w : V 3) : ∃ W : M 3, ∀ p, expTr p w = W.mulVec p := by
  by_cases h0 : w = 0
  · refine ⟨1, fun p => ?_⟩
    unfold expTr
    have e : skew w = 0 := by rw [h0]; ext i j; fin_cases i <;> fin_cases j <;> simp [skew]
    rw [se3_gen_sum, hi_join, lo_join, e, exp_blk_trans, one_mulVec]
    funext i
    simp only [hom, aug, Fin.lastCases_last, Fin.lastCases_castSucc]
  · have hp : 0 < Real.sqrt (w ⬝ᵥ w) := Real.sqrt_pos.2 (dot_self_pos h0)
    have hq := Real.mul_self_sqrt (dot_self_nonneg w)
    refine ⟨1 + ((1 - Real.cos (Real.sqrt (w ⬝ᵥ w))) / (Real.sqrt (w ⬝ᵥ w) * Real.sqrt (w ⬝ᵥ w))) • skew w +
      ((1 - Real.sin (Real.sqrt (w ⬝ᵥ w)) / Real.sqrt (w ⬝ᵥ w)) / (Real.sqrt (w ⬝ᵥ w) * Real.sqrt (w ⬝ᵥ w))) • (skew w * skew w), fun p => ?_⟩
    · unfold expTr
      rw [se3_gen_sum, hi_join, lo_join, exp_blk_rigid (skew w) (Real.sqrt (w ⬝ᵥ w)) hp.ne' (by rw [skew_cube_dot, hq]) p]
      funext i; simp only [hom, aug, Fin.lastCases_last, Fin.lastCases_castSucc]

/-- the exponential's translation is 1-Lipschitz -/
theorem expTr_lip (p q w : V 3) : eucl (expTr p w - expTr q w) ≤ eucl (p - q) := by
  obtain ⟨W, h⟩ := expTr_lin 0 w
  rw [h p, h q, ← Matrix.mulVec_sub, ← h]
  exact expTr_le _ _

theorem outer_eq (t w : V 3) : (t ⬝ᵥ w) • w = (skew w * skew w + (w ⬝ᵥ w) • (1 : M 3)).mulVec t := by
  rw [dot3, dot3]
  funext i
  fin_cases i <;> simp [skew, mulVec, dotProduct, Fin.sum_univ_three, Matrix.add_apply] <;> ring

theorem skew_half (w : V 3) : skew ((-1 / 2 : ℝ) • w) = (-1 / 2 : ℝ) • skew w := by
  ext i j; fin_cases i <;> fin_cases j <;> simp [skew]

/-- the twist's translation as `SE3::ln` computes it: `(exp(-w/2) t - κ (t·w) w) / (2 s)` -/
noncomputable def lnTr (t w : V 3) : V 3 :=
  (1 / (2 * shR (eucl w))) • ((NormedSpace.exp (skew ((-1 / 2 : ℝ) • w)) : M 3).mulVec t -
    ((1 - 2 * shR (eucl w)) / (w ⬝ᵥ w) * (t ⬝ᵥ w)) • w)

/-- it is the exact inverse -/
theorem expTr_lnTr (t w : V 3) (hw : eucl w < 2 * Real.pi) : expTr (lnTr t w) w = t := by
  by_cases h0 : w = 0
  · have e : skew w = 0 := by rw [h0]; ext i j; fin_cases i <;> fin_cases j <;> simp [skew]
    have ew : eucl w = 0 := by rw [h0]; simp [eucl]
    have e1 : lnTr t w = t := by
      unfold lnTr
      rw [skew_half, e, ew, shR, if_pos rfl]
      simp
    rw [e1]
    unfold expTr
    rw [se3_gen_sum, hi_join, lo_join, e, exp_blk_trans]
    funext i
    simp only [hom, aug, Fin.lastCases_last, Fin.lastCases_castSucc]
  · have hp : 0 < Real.sqrt (w ⬝ᵥ w) := Real.sqrt_pos.2 (dot_self_pos h0)
    have hq := Real.mul_self_sqrt (dot_self_nonneg w)
    have hE := eucl_eq_sqrt w
    unfold expTr
    rw [se3_gen_sum, hi_join, lo_join, exp_blk_rigid (skew w) (Real.sqrt (w ⬝ᵥ w)) hp.ne' (by rw [skew_cube_dot, hq])]
    funext i
    simp only [hom, aug, Fin.lastCases_last, Fin.lastCases_castSucc]
    refine congrFun ?_ i
    unfold lnTr
    rw [hE] at hw ⊢
    have hq' : w ⬝ᵥ w = Real.sqrt (w ⬝ᵥ w) * Real.sqrt (w ⬝ᵥ w) := hq.symm
    have h3 : Real.sqrt (w ⬝ᵥ w) * Real.sqrt (w ⬝ᵥ w) = w 0 * w 0 + w 1 * w 1 + w 2 * w 2 := by rw [hq, dot3]
    generalize hθ : Real.sqrt (w ⬝ᵥ w) = θ at *
    have hS : 0 < Real.sin (θ / 2) := Real.sin_pos_of_pos_of_lt_pi (by linarith) (by linarith)
    have eX := exp_skew ((-1 / 2 : ℝ) • w) (θ / 2) (by simp only [Pi.smul_apply, smul_eq_mul]; linear_combination h3 / 4) (by linarith)
    rw [eX, skew_half, shR, if_neg hp.ne']
    have eo := outer_eq t w
    have V := V_inverse (skew w) θ hp.ne' hS.ne' (by rw [skew_cube_dot, hq'])
    rw [mul_smul, eo, ← Matrix.smul_mulVec, ← Matrix.sub_mulVec, ← Matrix.smul_mulVec, mulVec_mulVec, hq']
    refine Eq.trans (congrArg (fun X : M 3 => X.mulVec t) (Eq.trans (congrArg _ ?_) V)) (one_mulVec t)
    rw [Matrix.smul_mul, Matrix.mul_smul]
    generalize Real.sin (θ / 2) = S at *
    generalize Real.cos (θ / 2) = K at *
    generalize skew w * skew w = Y
    generalize skew w = X
    have i1 : 1 / (2 * (S / θ)) * (1 - (1 - 2 * (S / θ)) / (θ * θ) * (θ * θ)) = 1 := by field_simp; ring
    have i2 : 1 / (2 * (S / θ)) * (S / (θ / 2) * (-1 / 2)) = -1 / 2 := by field_simp
    have i3 : 1 / (2 * (S / θ)) * ((1 - K) / (θ / 2 * (θ / 2)) * (-1 / 2 * (-1 / 2)) - (1 - 2 * (S / θ)) / (θ * θ)) = (1 - θ * K / (2 * S)) / (θ * θ) := by
      field_simp; ring
    refine Eq.trans (b := (1 / (2 * (S / θ)) * (1 - (1 - 2 * (S / θ)) / (θ * θ) * (θ * θ))) • (1 : M 3) +
      (1 / (2 * (S / θ)) * (S / (θ / 2) * (-1 / 2))) • X +
      (1 / (2 * (S / θ)) * ((1 - K) / (θ / 2 * (θ / 2)) * (-1 / 2 * (-1 / 2)) - (1 - 2 * (S / θ)) / (θ * θ))) • Y) ?_ (by rw [i1, i2, i3])
    module

end TooN.Lie
