import Verif.Model.SVD
import Verif.Spec.Linear
import Mathlib.Data.Matrix.Mul
import Mathlib.Data.Matrix.Diagonal
import Mathlib.LinearAlgebra.Matrix.ConjTranspose
/-!
# What a singular value decomposition and a pseudo-inverse are; the contract of `gesvd`
-/
namespace TooN.SVD
open TooN.LU Matrix
variable {K : Type _} [Field K] [LinearOrder K]

/-- `A = U diag(s) VT`, `U` with orthonormal columns, `VT` with orthonormal rows, `s` nonnegative, descending. -/
structure IsSVD {r c k : Nat} (A : Matrix (Fin r) (Fin c) K) (U : Matrix (Fin r) (Fin k) K) (s : Fin k → K)
    (VT : Matrix (Fin k) (Fin c) K) : Prop where
  prod : U * diagonal s * VT = A
  orthU : Uᵀ * U = 1
  orthV : VT * VTᵀ = 1
  nonneg : ∀ i, 0 ≤ s i
  desc : ∀ i j, i ≤ j → s j ≤ s i

/-- the Moore-Penrose equations: `X` is *the* pseudo-inverse of `A` -/
structure MoorePenrose {r c : Nat} (A : Matrix (Fin r) (Fin c) K) (X : Matrix (Fin c) (Fin r) K) : Prop where
  axa : A * X * A = A
  xax : X * A * X = X
  symAX : (A * X)ᵀ = A * X
  symXA : (X * A)ᵀ = X * A

/-- LAPACK's description of `gesvd`: 'S' returns the first `min(M,N)` columns of `U` (rows of `VT`) in the array
`U` (`VT`), 'O' overwrites `A` with the first `min(M,N)` columns of `U` (rows of `VT`).  `LDU ≥ M` if `JOBU = 'S'`,
`LDVT ≥ min(M,N)` if `JOBVT = 'S'`. -/
structure GesvdOK (g : Gesvd K) : Prop where
  so : ∀ M N (A : Buf K) lda ldu ldvt, M ≤ lda → M ≤ ldu →
    let r := g 'S' 'O' M N A lda ldu ldvt
    IsSVD (asM M N (fview lda A)) (asM M (min M N) (fview ldu r.2.2)) (asV (min M N) r.2.1)
      (asM (min M N) N (fview lda r.1))
  os : ∀ M N (A : Buf K) lda ldu ldvt, M ≤ lda → min M N ≤ ldvt →
    let r := g 'O' 'S' M N A lda ldu ldvt
    IsSVD (asM M N (fview lda A)) (asM M (min M N) (fview lda r.1)) (asV (min M N) r.2.1)
      (asM (min M N) N (fview ldvt r.2.2))

end TooN.SVD
