import Mathlib.Analysis.Matrix.Normed
import Verif.Spec.Float
/-!
# Sizes of matrices and vectors

Euclidean length of a vector and Frobenius norm (root of the sum of squares of the elements) of a matrix.  Nothing here
refers to TooN.
-/
namespace TooN

/-- Euclidean length -/
noncomputable def eucl {n : ℕ} (v : Fin n → ℝ) : ℝ := Real.sqrt (∑ i, v i ^ 2)

/-- Frobenius norm -/
noncomputable def frob {m n : ℕ} (A : Matrix (Fin m) (Fin n) ℝ) : ℝ := Real.sqrt (∑ i, ∑ j, A i j ^ 2)

/-- the product `R 0 * R 1 * … * R k` -/
def chain {n : ℕ} (R : ℕ → Matrix (Fin n) (Fin n) ℝ) (k : ℕ) : Matrix (Fin n) (Fin n) ℝ :=
  ((List.range (k + 1)).map R).prod

end TooN
