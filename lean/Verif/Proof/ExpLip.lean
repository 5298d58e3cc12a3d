import Verif.Proof.FloatRot
import Verif.Props.SO3Ln
import Mathlib.Analysis.SpecialFunctions.Exponential
import Mathlib.Analysis.Calculus.MeanValue
/-!
# The exponential of skew-symmetric matrices does not increase distances
-/
namespace TooN.Lie
open Finset Matrix
attribute [local instance] Matrix.frobeniusNormedAddCommGroup Matrix.frobeniusNormedRing Matrix.frobeniusNormedAlgebra
  Matrix.frobeniusNormedSpace

theorem exp_lip (A B : M 3) (hA : ∀ t : ℝ, IsRot (NormedSpace.exp (t • A))) (hB : ∀ t : ℝ, IsRot (NormedSpace.exp (t • B))) :
    frob (NormedSpace.exp A - NormedSpace.exp B) ≤ frob (A - B) := by
  have d : ∀ t : ℝ, HasDerivAt (fun t : ℝ => NormedSpace.exp (t • A) * NormedSpace.exp ((1 - t) • B))
      (NormedSpace.exp (t • A) * (A - B) * NormedSpace.exp ((1 - t) • B)) t := by
    intro t
    have h1 := hasDerivAt_exp_smul_const (𝕂 := ℝ) A t
    have h2 := (hasDerivAt_exp_smul_const' (𝕂 := ℝ) B (1 - t)).scomp t ((hasDerivAt_id t).const_sub 1)
    refine (h1.mul h2).congr_deriv ?_
    simp only [Function.comp, neg_smul, one_smul]
    noncomm_ring
  have h := norm_image_sub_le_of_norm_deriv_le_segment_01' (C := frob (A - B)) (fun t _ => (d t).hasDerivWithinAt) (fun t _ => by
    rw [← frob_eq_norm, frob_mul_orth _ (hB _).orth, frob_orth_mul _ (mul_eq_one_comm.1 (hA t).orth)])
  rw [← frob_eq_norm] at h
  simpa using h

theorem skew_lip (x y : V 3) : frob (NormedSpace.exp (skew x) - NormedSpace.exp (skew y)) ≤ Real.sqrt 2 * eucl (x - y) := by
  have hs : ∀ (w : V 3) (t : ℝ), t • skew w = skew (t • w) := by
    intro w t; ext i j; fin_cases i <;> fin_cases j <;> simp [skew]
  refine (exp_lip _ _ (fun t => by rw [hs]; exact exp_skew_rot _) (fun t => by rw [hs]; exact exp_skew_rot _)).trans (le_of_eq ?_)
  unfold frob eucl
  rw [← Real.sqrt_mul (by norm_num)]
  congr 1
  simp [Fin.sum_univ_three, skew]; ring

end TooN.Lie
