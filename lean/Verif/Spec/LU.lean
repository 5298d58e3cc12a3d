import Verif.Model.LU
import Verif.Spec.Linear
import Mathlib.Data.Matrix.Mul
/-!
# Contracts of the LAPACK/BLAS routines used by LU.h (LAPACK documentation of getrf, getri, trsm)
-/
namespace TooN.LU
variable {K : Type _} [Field K]

/-- upper triangle with diagonal -/
def upperPart (n : Nat) (A : Mat K) : Matrix (Fin n) (Fin n) K :=
  Matrix.of fun i j => if i ≤ j then A i j else 0
/-- strict lower triangle with unit diagonal -/
def unitLowerPart (n : Nat) (A : Mat K) : Matrix (Fin n) (Fin n) K :=
  Matrix.of fun i j => if j < i then A i j else if i = j then 1 else 0

/-- interchange of rows `i` and `j` -/
def interchange (i j : Nat) (A : Mat K) : Mat K :=
  fun r c => if r = i then A j c else if r = j then A i c else A r c

/-- "for 1 ≤ i ≤ n, row i of the matrix was interchanged with row IPIV(i)" (getrf), 0-based -/
def interchanges (n : Nat) (ipiv : Nat → Nat) (A : Mat K) : Mat K :=
  forN n (fun i A => interchange i (ipiv i - 1) A) A

/-- getrf: the input is `P L U` with `P` the recorded interchanges, `i ≤ IPIV(i) ≤ n`. -/
def GetrfOK (n : Nat) (A A' : Buf K) (ipiv : Nat → Nat) : Prop :=
  (∀ i, i < n → i + 1 ≤ ipiv i ∧ ipiv i ≤ n) ∧
  asM n n (interchanges n ipiv (fview n A)) = unitLowerPart n (fview n A') * upperPart n (fview n A')

structure LapackOK (lp : Lapack K) : Prop where
  getrf : ∀ n A, GetrfOK n A (lp.getrf n n A n).1 (lp.getrf n n A n).2
  /-- trsm R,U,N,N: `X * A = B` for upper triangular `A` with nonzero diagonal -/
  trsmRU : ∀ M N (A B : Buf K) lda ldb, N ≤ lda → M ≤ ldb → (∀ i, i < N → fview lda A i i ≠ 0) →
    asM M N (fview ldb (lp.trsm 'R' 'U' 'N' 'N' M N 1 A lda B ldb)) * upperPart N (fview lda A) =
      asM M N (fview ldb B)
  /-- trsm R,L,N,U: `X * A = B` for unit lower triangular `A` -/
  trsmRL : ∀ M N (A B : Buf K) lda ldb, N ≤ lda → M ≤ ldb →
    asM M N (fview ldb (lp.trsm 'R' 'L' 'N' 'U' M N 1 A lda B ldb)) * unitLowerPart N (fview lda A) =
      asM M N (fview ldb B)
  /-- getri after getrf: the inverse of the factored matrix -/
  getri : ∀ n A, (∀ i, i < n → fview n (lp.getrf n n A n).1 i i ≠ 0) →
    asM n n (fview n (lp.getri n (lp.getrf n n A n).1 n (lp.getrf n n A n).2)) * asM n n (fview n A) = 1

end TooN.LU
