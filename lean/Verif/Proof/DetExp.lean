import Mathlib.Analysis.Normed.Algebra.MatrixExponential
import Mathlib.Analysis.SpecialFunctions.Exponential
import Mathlib.Analysis.Calculus.MeanValue
import Mathlib.LinearAlgebra.Matrix.Charpoly.Coeff
import Mathlib.Analysis.Calculus.Deriv.Mul
import Mathlib.Analysis.Calculus.FDeriv.Mul
import Mathlib.Analysis.Calculus.Deriv.Polynomial
import Mathlib.Analysis.Calculus.FDeriv.Add
/-!
# The determinant of the exponential of a traceless matrix is 1
-/
namespace TooN
open Matrix

open scoped Matrix.Norms.Operator in
theorem det_differentiable {n : Nat} :
    Differentiable ℝ (fun A : Matrix (Fin n) (Fin n) ℝ => A.det) := by
  have hent : ∀ i j, Differentiable ℝ (fun A : Matrix (Fin n) (Fin n) ℝ => A i j) := by
    intro i j
    exact (Matrix.entryLinearMap ℝ ℝ i j).toContinuousLinearMap.differentiable
  simp only [Matrix.det_apply]
  refine Differentiable.fun_sum fun σ _ => ?_
  refine Differentiable.const_smul ?_ _
  have : ∀ u : Finset (Fin n), Differentiable ℝ (fun A : Matrix (Fin n) (Fin n) ℝ => ∏ i ∈ u, A (σ i) i) := by
    intro u
    induction u using Finset.induction_on with
    | empty => simpa using differentiable_const (1 : ℝ)
    | insert a u ha ih =>
      simp only [Finset.prod_insert ha]
      exact (hent _ _).mul ih
  exact this _

open scoped Matrix.Norms.Operator in
theorem det_exp_traceless {n : Nat} (A : Matrix (Fin n) (Fin n) ℝ) (hA : A.trace = 0) :
    (NormedSpace.exp A).det = 1 := by
  have hd0 : HasDerivAt (fun u : ℝ => (NormedSpace.exp (u • A)).det) 0 0 := by
    have he : HasDerivAt (fun u : ℝ => NormedSpace.exp (u • A)) A 0 := by
      have := hasDerivAt_exp_smul_const (𝕂 := ℝ) A (0 : ℝ)
      rw [zero_smul, NormedSpace.exp_zero, one_mul] at this
      exact this
    have hD := (det_differentiable (n := n) 1).hasFDerivAt
    have h1 : HasDerivAt (fun u : ℝ => (NormedSpace.exp (u • A)).det)
        ((fderiv ℝ (fun A : Matrix (Fin n) (Fin n) ℝ => A.det) 1) A) 0 := by
      have hD' : HasFDerivAt (fun A : Matrix (Fin n) (Fin n) ℝ => A.det)
          (fderiv ℝ (fun A : Matrix (Fin n) (Fin n) ℝ => A.det) 1) (NormedSpace.exp ((0 : ℝ) • A)) := by
        simpa using hD
      exact hD'.comp_hasDerivAt (0 : ℝ) he
    have h2 : HasDerivAt (fun u : ℝ => (1 + u • A).det)
        ((fderiv ℝ (fun A : Matrix (Fin n) (Fin n) ℝ => A.det) 1) A) 0 := by
      have hl : HasDerivAt (fun u : ℝ => 1 + u • A) A 0 := by
        have := ((hasDerivAt_id (0 : ℝ)).smul_const A).const_add (1 : Matrix (Fin n) (Fin n) ℝ)
        rw [one_smul] at this
        exact this
      have hD' : HasFDerivAt (fun A : Matrix (Fin n) (Fin n) ℝ => A.det)
          (fderiv ℝ (fun A : Matrix (Fin n) (Fin n) ℝ => A.det) 1) (1 + (0 : ℝ) • A) := by
        simpa using hD
      exact hD'.comp_hasDerivAt (0 : ℝ) hl
    have h3 : HasDerivAt (fun u : ℝ => (1 + u • A).det) 0 0 := by
      have hpoly : (fun u : ℝ => (1 + u • A).det) =
          fun u => 1 + A.trace * u + ((det (1 + (Polynomial.X : Polynomial ℝ) • A.map Polynomial.C)).divX.divX).eval u * u ^ 2 := by
        funext u; exact det_one_add_smul u A
      rw [hpoly, hA]
      have hp := ((det (1 + (Polynomial.X : Polynomial ℝ) • A.map Polynomial.C)).divX.divX).hasDerivAt (0 : ℝ)
      have hq : HasDerivAt (fun u : ℝ => u ^ 2) 0 0 := by simpa using hasDerivAt_pow 2 (0 : ℝ)
      have := (hp.mul hq)
      have h4 := this.const_add ((1 : ℝ))
      simpa using h4
    rw [h2.unique h3] at h1
    exact h1
  have hd : ∀ u : ℝ, HasDerivAt (fun u : ℝ => (NormedSpace.exp (u • A)).det) 0 u := by
    intro u
    have heq : (fun w : ℝ => (NormedSpace.exp (w • A)).det) =
        fun w => (NormedSpace.exp (u • A)).det * (fun w : ℝ => (NormedSpace.exp (w • A)).det) (w - u) := by
      funext w
      have : w • A = u • A + (w - u) • A := by rw [← add_smul]; congr 1; ring
      conv_lhs => rw [this]
      rw [Matrix.exp_add_of_commute _ _ (((Commute.refl A).smul_left _).smul_right _), det_mul]
    rw [heq]
    have hs : HasDerivAt (fun w : ℝ => w - u) 1 u := (hasDerivAt_id u).sub_const u
    have hd0' : HasDerivAt (fun u : ℝ => (NormedSpace.exp (u • A)).det) 0 (u - u) := by simpa using hd0
    have hc := HasDerivAt.comp (h := fun w : ℝ => w - u) u hd0' hs
    have := hc.const_mul ((NormedSpace.exp (u • A)).det)
    simpa using this
  have := is_const_of_deriv_eq_zero (f := fun u : ℝ => (NormedSpace.exp (u • A)).det)
    (fun u => (hd u).differentiableAt) (fun u => (hd u).deriv) 1 0
  simpa using this

end TooN
