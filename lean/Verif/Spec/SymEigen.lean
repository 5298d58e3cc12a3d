import Verif.Model.SymEigen
import Verif.Spec.Linear
import Mathlib.Data.Matrix.Mul
import Mathlib.Data.Matrix.Diagonal
/-!
# What an eigendecomposition is; the contract of `syev`
-/
namespace TooN.SymEigen
open TooN.LU Matrix

/-- The rows of `V` are orthonormal eigenvectors of `A`, `l` the corresponding eigenvalues, in ascending order. -/
structure IsEigen {n : Nat} (A V : Matrix (Fin n) (Fin n) ℝ) (l : Fin n → ℝ) : Prop where
  orth : V * Vᵀ = 1
  prod : Vᵀ * diagonal l * V = A
  asc : Monotone l

/-- LAPACK's description of `syev` with JOBZ='V', UPLO='U': only the upper triangle of `A` (leading dimension `LDA`) is
referenced; on exit the columns of `A` are orthonormal eigenvectors and `W` holds the eigenvalues in ascending
order. (Successful exit, INFO = 0.) -/
def SyevOK (f : Syev) : Prop :=
  ∀ (N : Nat) (A : Buf ℝ) (lda : Nat) (S : Matrix (Fin N) (Fin N) ℝ), N ≤ lda → Sᵀ = S →
    (∀ i j : Fin N, i ≤ j → S i j = fview lda A i j) →
    let r := f 'V' 'U' N A lda
    IsEigen S (asM N N (fview lda r.1))ᵀ (asV N r.2)

end TooN.SymEigen
