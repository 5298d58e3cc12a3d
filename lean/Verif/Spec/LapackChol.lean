import Verif.Model.LapackChol
import Verif.Spec.SymPosDef
import Verif.Spec.Linear
/-!
# Contracts of potrf, potrs and potri with UPLO = "L" (LAPACK documentation)

The symmetric matrix is the one whose lower half is the *Fortran* lower half of the array, i.e. the *upper* half of the
row-major C++ matrix.
-/
namespace TooN.LapackChol
open LU (Buf cview fview pack)

/-- the lower triangle with diagonal -/
def lowerPart (n : Nat) (A : Mat ℝ) : Matrix (Fin n) (Fin n) ℝ := Matrix.of fun i j => if j ≤ i then A i j else 0

/-- the symmetric matrix whose upper half (with diagonal) is that of `A` -/
def upperSym (A : Mat ℝ) : Mat ℝ := fun r c => if r ≤ c then A r c else A c r

structure LapackOK (lp : Lapack) : Prop where
  /-- INFO = 0: the lower triangle is overwritten by `L` with `A = L Lᵀ`; INFO = i: the leading minor of order i is
  (the first that is) not positive definite. -/
  potrf : ∀ n (A : Buf ℝ),
    ((lp.potrf n A n).2 = 0 ∧ (∀ i, i < n → 0 < fview n (lp.potrf n A n).1 i i) ∧
      lowerPart n (fview n (lp.potrf n A n).1) * (lowerPart n (fview n (lp.potrf n A n).1)).transpose = asM n n (lowerSym (fview n A))) ∨
    (∃ i : Nat, 1 ≤ i ∧ i ≤ n ∧ (lp.potrf n A n).2 = i ∧ SymPosDef (asM (i - 1) (i - 1) (lowerSym (fview n A))) ∧
      ¬ SymPosDef (asM i i (lowerSym (fview n A))))
  /-- solves `L Lᵀ X = B` -/
  potrs : ∀ n nrhs (A B : Buf ℝ), (∀ i, i < n → fview n A i i ≠ 0) →
    (lp.potrs n nrhs A n B n).2 = 0 ∧
    lowerPart n (fview n A) * (lowerPart n (fview n A)).transpose * asM n nrhs (fview n (lp.potrs n nrhs A n B n).1) = asM n nrhs (fview n B)
  /-- the lower half of the inverse of `L Lᵀ` -/
  potri : ∀ n (A : Buf ℝ), (∀ i, i < n → fview n A i i ≠ 0) →
    (lp.potri n A n).2 = 0 ∧
    lowerPart n (fview n A) * (lowerPart n (fview n A)).transpose * asM n n (lowerSym (fview n (lp.potri n A n).1)) = 1

end TooN.LapackChol
